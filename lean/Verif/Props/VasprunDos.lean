import Verif.Props.VasprunProj
/-! # vasprun.xml: atoms (C54) and densities of states (C55, C74) -/
set_option autoImplicit false
namespace Verif.Vasprun
open Verif Verif.Utils Verif.Xml
open Verif.Kpoints (idx toFloat toInt)
open Verif.Chgcar (chunks chunks_length chunks_get chunk_elem list_ext)

/-! ### specification -/

/-- The symbols by atomic number (lower case, `x` for none), the last six with their names of before 2012/2016. -/
def periodicTable : List Str :=
  words (c!"x h he li be b c n o f ne na mg al si p s cl ar k ca sc ti v cr mn fe co ni cu zn ga ge as se br kr rb sr y zr nb mo tc ru rh pd ag " ++
    c!"cd in sn sb te i xe cs ba la ce pr nd pm sm eu gd tb dy ho er tm yb lu hf ta w re os ir pt au hg tl pb bi po at rn fr ra ac th pa u " ++
    c!"np pu am cm bk cf es fm md no lr rf db sg bh hs mt ds rg cn uut uuq uup uuh uus uuo ")

/-- The lines (`rc`) about atoms. -/
def atomLines (root : Node) : List Node := findAny root (t c!"atominfo") [tn c!"array" c!"atoms", t c!"set", t c!"rc"]

/-- The `c` elements directly in an element. -/
def cellsIn (s : Node) : List Node := s.children.filter fun n => decide (n.tag = c!"c")

/-- The symbol on an atom line is the first word of its first entry. -/
def SymbolOf (rc : Node) (w : Str) : Prop := ∃ c s ws, (cellsIn rc)[0]? = some c ∧ c.text = some s ∧ words s = w :: ws

/-- The rows of the total density of states for one spin; `dos` selects the densities of states. -/
def totalRows (root : Node) (dos : Step) (spin : Str) : List Node :=
  findAny root (t c!"calculation") [dos, t c!"total", t c!"array", t c!"set", tc c!"set" spin, t c!"r"]

/-- The `set` elements of the partial density of states for one spin, one for each atom. -/
def partSets (root : Node) (dos : Step) (spin : Str) : List Node :=
  findAny root (t c!"calculation") [dos, t c!"partial", t c!"array", t c!"set", t c!"set", tc c!"set" spin]

/-- The numbers in column `c` of rows. -/
def Column (c : Nat) (rows : List Node) (xs : List Rat) : Prop := List.Forall₂ (fun e x => ∃ row, Prints e row ∧ row[c]? = some x) rows xs

/-- The partial density of states, by atom and energy: what the row prints behind its first number. -/
def PartOf (sets : List Node) (na ne : Nat) (p : Option (List Table)) : Prop :=
  (sets = [] ∧ p = none) ∨ ∃ q, p = some q ∧ Shape na ne q ∧ ∀ a e, a < na → e < ne → ∃ x row, BandRow sets a e (x :: row) ∧ at2 q a e = some row

/-- The density of states of one spin. -/
def DosOf (root : Node) (dos : Step) (spin : Str) (na ne : Nat) (p : DosPart) : Prop :=
  Column 1 (totalRows root dos spin) p.total ∧ Column 2 (totalRows root dos spin) p.integrated ∧ PartOf (partSets root dos spin) na ne p.partials

/-- The densities of states by spin. -/
def DosBySpin (root : Node) (dos : Step) (na ne : Nat) (x : Dos) : Prop :=
  if totalRows root dos c!"spin 2" = [] then x.up = none ∧ x.down = none ∧ ∃ p, x.whole = some p ∧ DosOf root dos c!"spin 1" na ne p
  else x.whole = none ∧ ∃ p q, x.up = some p ∧ x.down = some q ∧ DosOf root dos c!"spin 1" na ne p ∧ DosOf root dos c!"spin 2" na ne q

/-! ### C54 -/

theorem get_zipIdx {l : List Str} (hn : l.Nodup) (n z : Nat) (w : Str) : Dict.get? (l.zipIdx n) w = some z ↔ n ≤ z ∧ l[z - n]? = some w := by
  induction l generalizing n with
  | nil => simp [Dict.get?]
  | cons a as ih =>
    rw [List.zipIdx_cons, Dict.get?]
    have hn' := List.nodup_cons.1 hn
    by_cases ha : a = w
    · subst ha
      simp only [if_true]
      constructor
      · intro h; injection h with h; subst h; simp
      · rintro ⟨h1, h2⟩
        obtain ⟨i, rfl⟩ : ∃ i, z = n + i := ⟨z - n, by omega⟩
        cases i with
        | zero => rfl
        | succ i =>
          have : n + (i + 1) - n = i + 1 := by omega
          rw [this, List.getElem?_cons_succ] at h2
          exact absurd (List.mem_of_getElem? h2) hn'.1
    · rw [if_neg ha, ih hn'.2]
      constructor
      · rintro ⟨h1, h2⟩
        refine ⟨by omega, ?_⟩
        have : z - n = (z - (n + 1)) + 1 := by omega
        rw [this, List.getElem?_cons_succ]; exact h2
      · rintro ⟨h1, h2⟩
        obtain ⟨i, rfl⟩ : ∃ i, z = n + i := ⟨z - n, by omega⟩
        cases i with
        | zero => simp at h2; exact absurd h2 ha
        | succ i =>
          have e : n + (i + 1) - n = i + 1 := by omega
          rw [e, List.getElem?_cons_succ] at h2
          have e' : n + (i + 1) - (n + 1) = i := by omega
          rw [e']; exact ⟨by omega, h2⟩

/-- The table of elements of the code is the periodic table. -/
theorem elementTable_spec (w : Str) (z : Nat) : Dict.get? elementTable w = some z ↔ periodicTable[z]? = some w := by
  have h : elementTable = periodicTable.zipIdx 0 := by decide +kernel
  rw [h, get_zipIdx (by decide +kernel)]
  simp

theorem selects_tag (s : Str) : (t s).selects = fun n => decide (n.tag = s) := by
  funext n; rw [Bool.eq_iff_iff]; simp [Step.selects, t]; exact ⟨of_decide_eq_true, decide_eq_true⟩

theorem everyOther_flatMap {α β : Type} {f : α → List β} (l : List α) (h : ∀ a ∈ l, (f a).length = 2) :
    everyOther (l.flatMap f) = l.filterMap fun a => (f a)[0]? := by
  induction l with
  | nil => rfl
  | cons a as ih =>
    obtain ⟨x, y, e⟩ := List.length_eq_two.1 (h a (List.mem_cons_self ..))
    rw [List.flatMap_cons, e, List.filterMap_cons_some (b := x) (by rw [e]; rfl), ← ih fun a ha => h a (List.mem_cons_of_mem _ ha)]
    rfl

theorem species_path (root : Node) :
    findAny root (t c!"atominfo") [tn c!"array" c!"atoms", t c!"set", t c!"rc", t c!"c"] = (atomLines root).flatMap cellsIn := by
  have : follow [t c!"c"] (atomLines root) = (atomLines root).flatMap cellsIn := by simp only [follow, selects_tag]; rfl
  rw [← this, atomLines, ← findAny_append]; rfl

theorem speciesOf_ok {c : Node} {z : Nat} : speciesOf c = .ok z ↔ ∃ s w ws, c.text = some s ∧ words s = w :: ws ∧ periodicTable[z]? = some (lower w) := by
  unfold speciesOf
  cases hc : c.text with
  | none => simp
  | some s =>
    simp only
    cases hw : words s with
    | nil => simp [hw]
    | cons w ws =>
      simp only
      cases hg : Dict.get? elementTable (lower w) with
      | none =>
        constructor
        · intro h; cases h
        · rintro ⟨s', w', ws', hs, hw', h⟩
          injection hs with hs; subst hs
          rw [hw] at hw'; injection hw' with h1 h2; subst h1
          rw [← elementTable_spec, hg] at h; cases h
      | some z' =>
        constructor
        · intro h; injection h with h; subst h
          exact ⟨s, w, ws, rfl, hw, (elementTable_spec _ _).1 hg⟩
        · rintro ⟨s', w', ws', hs, hw', h⟩
          injection hs with hs; subst hs
          rw [hw] at hw'; injection hw' with h1 h2; subst h1
          rw [← elementTable_spec, hg] at h; injection h with h; subst h; rfl

theorem fetchSpecies_eq (root : Node) (h2 : ∀ rc ∈ atomLines root, (cellsIn rc).length = 2) (hne : atomLines root ≠ []) :
    fetchSpecies root = Res.mapM' speciesOf ((atomLines root).filterMap fun a => (cellsIn a)[0]?) >>= fun s => .ok (some s) := by
  unfold fetchSpecies
  rw [species_path]
  have hl := flatMap_length (f := cellsIn) (n := 2) (l := atomLines root) fun a ha => h2 a ha
  have := everyOther_flatMap (f := cellsIn) (atomLines root) h2
  generalize hf : (atomLines root).flatMap cellsIn = es at hl this
  cases es with
  | nil =>
    cases hq : atomLines root with
    | nil => exact absurd hq hne
    | cons a as => rw [hq] at hl; simp at hl
  | cons e es => simp only; rw [this]; rfl

/-- **C54**: for every document whose atom lines have two entries (symbol and type), as VASP writes them: if it is accepted the species are, in order,
the atomic numbers of the symbols of the lines (any letter case). -/
theorem C54_species (root : Node) (kbb all : Bool) (d : Data) (h : parsew root kbb all = .ok d) (h2 : ∀ rc ∈ atomLines root, (cellsIn rc).length = 2)
    (hne : atomLines root ≠ []) :
    ∃ sp, d.species = some sp ∧ List.Forall₂ (fun rc z => ∃ w, SymbolOf rc w ∧ periodicTable[z]? = some (lower w)) (atomLines root) sp := by
  have hs := (parts h).species
  rw [fetchSpecies_eq root h2 hne] at hs
  obtain ⟨sp, hm, hs⟩ := Res.bind_eq_ok.1 hs
  injection hs with hs
  refine ⟨sp, hs.symm, ?_⟩
  rw [Res.mapM'_eq_ok] at hm
  clear hs h hne
  generalize atomLines root = l at h2 hm
  induction l generalizing sp with
  | nil => cases hm; exact .nil
  | cons a as ih =>
    obtain ⟨x, y, e⟩ := List.length_eq_two.1 (h2 a (List.mem_cons_self ..))
    have e0 : (cellsIn a)[0]? = some x := by rw [e]; rfl
    rw [List.filterMap_cons_some (f := fun a => (cellsIn a)[0]?) (a := a) e0] at hm
    cases hm with
    | cons hz hm =>
      obtain ⟨s, w, ws, h3, h4, h5⟩ := speciesOf_ok.1 hz
      exact .cons ⟨w, ⟨x, s, ws, e0, h3, h4⟩, h5⟩ (ih _ (fun a ha => h2 a (List.mem_cons_of_mem _ ha)) hm)

theorem mapM'_exit {α β : Type} {f : α → Res β} {n : Nat} {l : List α} (h : ∀ a ∈ l, (∃ b, f a = .ok b) ∨ f a = .exit n) (he : ∃ a ∈ l, f a = .exit n) :
    Res.mapM' f l = .exit n := by
  induction l with
  | nil => obtain ⟨a, ha, _⟩ := he; cases ha
  | cons a as ih =>
    rcases h a (List.mem_cons_self ..) with ⟨b, hb⟩ | hb
    · obtain ⟨c, hc, hx⟩ := he
      rcases List.mem_cons.1 hc with rfl | hc
      · rw [hb] at hx; cases hx
      · rw [Res.mapM', hb, ih (fun a ha => h a (List.mem_cons_of_mem _ ha)) ⟨c, hc, hx⟩]
    · rw [Res.mapM', hb]

/-- C54, the other direction: if every line has a symbol and one of them is unknown the program exits with 506. -/
theorem C54_unknown (root : Node) (kbb all : Bool) (p : Params) (hp : fetchParams root = .ok p) (h2 : ∀ rc ∈ atomLines root, (cellsIn rc).length = 2)
    (hw : ∀ rc ∈ atomLines root, ∃ w, SymbolOf rc w) (rc : Node) (hrc : rc ∈ atomLines root) (w : Str) (hs : SymbolOf rc w)
    (hu : lower w ∉ periodicTable) : parsew root kbb all = .exit 506 := by
  unfold parsew
  rw [hp, Res.ok_bind, fetchSpecies_eq root h2 (by intro e; rw [e] at hrc; cases hrc)]
  have key : ∀ rc w c, SymbolOf rc w → (cellsIn rc)[0]? = some c → (∃ z, speciesOf c = .ok z) ∨ speciesOf c = .exit 506 := by
    rintro rc w c ⟨c', s, ws, h1, h3, h4⟩ hc
    rw [h1] at hc; injection hc with hc; subst hc
    unfold speciesOf
    rw [h3]; simp only [h4]
    cases Dict.get? elementTable (lower w) with
    | none => exact .inr rfl
    | some z => exact .inl ⟨z, rfl⟩
  rw [mapM'_exit (n := 506)]
  · rfl
  · intro c hc
    obtain ⟨rc', hrc', hc⟩ := List.mem_filterMap.1 hc
    obtain ⟨w', hw'⟩ := hw rc' hrc'
    exact key rc' w' c hw' hc
  · obtain ⟨c, s, ws, h1, h3, h4⟩ := hs
    refine ⟨c, List.mem_filterMap.2 ⟨rc, hrc, h1⟩, ?_⟩
    unfold speciesOf
    rw [h3]; simp only [h4]
    cases hg : Dict.get? elementTable (lower w) with
    | none => rfl
    | some z => exact absurd (List.mem_of_getElem? ((elementTable_spec _ _).1 hg)) hu

/-- The present symbols of the elements 113 to 118 are not known. -/
theorem C54_violation_names : ∀ w ∈ [c!"nh", c!"fl", c!"mc", c!"lv", c!"ts", c!"og"], w ∉ periodicTable := by decide +kernel

/-! ### C55, C74 -/

theorem tableColumn_spec {n c : Nat} {es : List Node} {rows : Table} (h : List.Forall₂ (fun e r => Prints e r ∧ r.length = n) es rows) (hc : c < n) :
    Column c es (tableColumn c rows) := by
  unfold Column tableColumn
  induction h with
  | nil => exact .nil
  | @cons e r es rows hr _ ih =>
    have hl : c < r.length := by rw [hr.2]; exact hc
    rw [List.filterMap_cons_some (f := fun r : List Rat => r[c]?) (a := r) (List.getElem?_eq_getElem hl)]
    exact .cons ⟨r, hr.1, List.getElem?_eq_getElem hl⟩ ih

/-- The partial density of states as the code computes it, for any number of columns. -/
theorem partialDos_fit {sets : List Node} {na ne c : Nat} (h : Regular sets ne na c) (ha : 0 < na) :
    ∃ q, partialDos na (sets.flatMap rowsIn) = .ok q ∧ Shape na ne q ∧
      ∀ a e, a < na → e < ne → ∃ row, BandRow sets a e row ∧ row.length = c ∧ at2 q a e = some ((fitRow 10 row).drop 1) := by
  obtain ⟨rows, hr⟩ := h.allPrint.rows
  obtain ⟨_, g2, g3, g4⟩ := h.blocks ha hr
  have hl : rows.length = na * ne := by rw [← hr.length_eq, h.length]
  unfold partialDos
  rw [convert2D_fit hr, Res.ok_bind]
  have hl' : ((rows.map (fitRow 10)).map fun r => r.drop 1).length = na * ne := by simp [hl]
  refine ⟨_, split_of_length ha hl', chunks_shape hl', fun a e h1 h2 => ?_⟩
  obtain ⟨row, hb, hrow⟩ := g4 a e h1 h2
  rw [at2_chunks h1 h2] at hrow
  refine ⟨row, hb, ?_, ?_⟩
  · obtain ⟨hi, rfl⟩ := List.getElem?_eq_some_iff.1 hrow
    exact (hr.get (by rw [hr.length_eq]; exact hi) hi).2
  · rw [at2_chunks h1 h2, List.getElem?_map, List.getElem?_map, hrow]; rfl

theorem partialOf_ten {sets : List Node} {na ne : Nat} (h : sets = [] ∨ Regular sets ne na 10) (ha : 0 < na) (he : 0 < ne) :
    ∃ p, partialOf na (nonEmpty (sets.flatMap rowsIn)) = .ok p ∧ PartOf sets na ne p := by
  rcases h with rfl | h
  · exact ⟨none, rfl, .inl ⟨rfl, rfl⟩⟩
  · obtain ⟨q, hq, hs, hv⟩ := partialDos_fit h ha
    have hne := h.rows_ne he ha
    refine ⟨some q, ?_, .inr ⟨q, rfl, hs, fun a e h1 h2 => ?_⟩⟩
    · unfold nonEmpty partialOf
      have : (sets.flatMap rowsIn).isEmpty = false := by simpa using hne
      simp only [this, Bool.false_eq_true, if_false, hq, Res.ok_bind]
    · obtain ⟨row, g1, g2, g3⟩ := hv a e h1 h2
      unfold fitRow at g3
      rw [if_pos g2] at g3
      cases row with
      | nil => simp at g2
      | cons x row => exact ⟨x, row, g1, g3⟩

theorem part_path (root : Node) (dos : Step) (spin : Str) :
    findAny root (t c!"calculation") [dos, t c!"partial", t c!"array", t c!"set", t c!"set", tc c!"set" spin, t c!"r"] =
      (partSets root dos spin).flatMap rowsIn := by
  rw [← follow_rows, partSets, ← findAny_append]; rfl

/-- The number printed in the first of some elements, if there is one with text. -/
def FirstNumber (es : List Node) (r : Option Rat) : Prop :=
  match es with
  | [] => r = none
  | e :: _ => match e.text with
    | none => r = none
    | some s => ∃ x, pyFloatRat s = some x ∧ r = some x

theorem toFloat_ok {w : Str} {x : Rat} (h : toFloat w = .ok x) : pyFloatRat w = some x := by
  unfold toFloat at h
  unfold pyFloatRat
  split at h <;> first | cases h; rename_i e; rw [e]; done | cases h

theorem fetchF_ok {es : List Node} {r : Option Rat} (h : fetch convertF es = .ok r) : FirstNumber es r := by
  unfold fetch at h
  unfold FirstNumber
  cases es with
  | nil => injection h with h; exact h.symm
  | cons e es =>
    simp only at h ⊢
    unfold convertF at h
    cases ht : e.text with
    | none => rw [ht] at h; injection h with h; exact h.symm
    | some s =>
      rw [ht] at h
      simp only at h ⊢
      split at h
      · cases h
      · obtain ⟨x, hx, h⟩ := Res.bind_eq_ok.1 h
        injection h with h
        exact ⟨x, toFloat_ok hx, h.symm⟩

/-- One density of states. -/
theorem oneDos {root : Node} {dos : Step} {na ne : Nat} {r : Option Dos} (h : fetchOneDos root dos (some na) = .ok r) (ha : 0 < na) (he : 0 < ne)
    (hne : totalRows root dos c!"spin 1" ≠ []) (h1 : AllPrint 3 (totalRows root dos c!"spin 1")) (h2 : AllPrint 3 (totalRows root dos c!"spin 2"))
    (p1 : partSets root dos c!"spin 1" = [] ∨ Regular (partSets root dos c!"spin 1") ne na 10)
    (p2 : partSets root dos c!"spin 2" = [] ∨ Regular (partSets root dos c!"spin 2") ne na 10) :
    ∃ x, r = some x ∧ Column 0 (totalRows root dos c!"spin 1") x.energy ∧
      FirstNumber (findAny root (t c!"calculation") [dos, tn c!"i" c!"efermi"]) x.fermi ∧ DosBySpin root dos na ne x := by
  unfold fetchOneDos at h
  obtain ⟨fermi, hf, h⟩ := Res.bind_eq_ok.1 h
  have hfermi := fetchF_ok hf
  simp only [part_path] at h
  change (match totalRows root dos c!"spin 1" with
    | [] => (Res.ok none : Res (Option Dos))
    | t1 => extractDos t1 (nonEmpty (totalRows root dos c!"spin 2")) (nonEmpty ((partSets root dos c!"spin 1").flatMap rowsIn))
        (nonEmpty ((partSets root dos c!"spin 2").flatMap rowsIn)) fermi na >>= fun x => .ok (some x)) = .ok r at h
  have h : (extractDos (totalRows root dos c!"spin 1") (nonEmpty (totalRows root dos c!"spin 2")) (nonEmpty ((partSets root dos c!"spin 1").flatMap rowsIn))
        (nonEmpty ((partSets root dos c!"spin 2").flatMap rowsIn)) fermi na >>= fun x => .ok (some x)) = .ok r := by
    generalize totalRows root dos c!"spin 1" = l at h hne
    cases l with
    | nil => exact absurd rfl hne
    | cons a as => exact h
  obtain ⟨x, hx, h⟩ := Res.bind_eq_ok.1 h
  injection h with h
  refine ⟨x, h.symm, ?_⟩
  obtain ⟨r1, hr1⟩ := h1.rows
  obtain ⟨r2, hr2⟩ := h2.rows
  obtain ⟨q1, hq1, hp1⟩ := partialOf_ten p1 ha he
  obtain ⟨q2, hq2, hp2⟩ := partialOf_ten p2 ha he
  unfold extractDos at hx
  unfold DosBySpin
  by_cases hs : totalRows root dos c!"spin 2" = []
  · rw [if_pos hs]
    rw [hs] at hx
    simp only [nonEmpty, List.isEmpty_nil, if_true] at hx
    rw [convert2D_rows hr1, Res.ok_bind] at hx
    change (partialOf na (nonEmpty ((partSets root dos c!"spin 1").flatMap rowsIn)) >>= _) = _ at hx
    rw [hq1, Res.ok_bind] at hx
    injection hx with hx
    subst hx
    exact ⟨tableColumn_spec hr1 (by omega), hfermi, rfl, rfl, _, rfl, tableColumn_spec hr1 (by omega), tableColumn_spec hr1 (by omega), hp1⟩
  · rw [if_neg hs]
    have : nonEmpty (totalRows root dos c!"spin 2") = some (totalRows root dos c!"spin 2") := by
      unfold nonEmpty; rw [if_neg (by simpa using hs)]
    rw [this] at hx
    simp only [convert2D_rows hr1, convert2D_rows hr2, Res.ok_bind, hq1, hq2] at hx
    injection hx with hx
    subst hx
    exact ⟨tableColumn_spec hr1 (by omega), hfermi, rfl, _, _, rfl, rfl, ⟨tableColumn_spec hr1 (by omega), tableColumn_spec hr1 (by omega), hp1⟩,
      tableColumn_spec hr2 (by omega), tableColumn_spec hr2 (by omega), hp2⟩

/-- **C55** and **C74** for rows of three (total) and ten numbers (partial, s, p and d orbitals with all magnetic quantum numbers) and one density of
states in the document: in an accepted document the energies are the first numbers of the rows of the first spin, and for each spin `total` and `integrated` are the
second and third numbers of its rows, and `partial[a][e]` is what row `e` of atom `a` prints behind its first number. Missing: other row lengths and several densities, for which the claim is false (`C55_violation_*`). -/
theorem C55_dos_partial (root : Node) (kbb all : Bool) (d : Data) (h : parsew root kbb all = .ok d) (sp : List Nat) (hsp : d.species = some sp) (ne : Nat)
    (ha : 0 < sp.length) (he : 0 < ne) (hne : totalRows root (t c!"dos") c!"spin 1" ≠ [])
    (h1 : AllPrint 3 (totalRows root (t c!"dos") c!"spin 1")) (h2 : AllPrint 3 (totalRows root (t c!"dos") c!"spin 2"))
    (p1 : partSets root (t c!"dos") c!"spin 1" = [] ∨ Regular (partSets root (t c!"dos") c!"spin 1") ne sp.length 10)
    (p2 : partSets root (t c!"dos") c!"spin 2" = [] ∨ Regular (partSets root (t c!"dos") c!"spin 2") ne sp.length 10) :
    ∃ x, d.dos = some x ∧ Column 0 (totalRows root (t c!"dos") c!"spin 1") x.energy ∧
      FirstNumber (findAny root (t c!"calculation") [t c!"dos", tn c!"i" c!"efermi"]) x.fermi ∧ DosBySpin root (t c!"dos") sp.length ne x := by
  have hd := (parts h).dos
  rw [hsp] at hd
  unfold fetchDos at hd
  obtain ⟨r, hr, hd⟩ := Res.bind_eq_ok.1 hd
  obtain ⟨x, rfl, g⟩ := oneDos hr ha he hne h1 h2 p1 p2
  simp only at hd
  obtain ⟨s, _, hd⟩ := Res.bind_eq_ok.1 hd
  injection hd with hd
  injection hd with hd1 hd2
  exact ⟨x, hd1.symm, g⟩

/-- **C74** for the interpolated density of states, which is read if there is a density of states at all. -/
theorem C74_interpolated (root : Node) (kbb all : Bool) (d : Data) (h : parsew root kbb all = .ok d) (sp : List Nat) (hsp : d.species = some sp) (ne : Nat)
    (ha : 0 < sp.length) (he : 0 < ne) (x : Dos) (hx : d.dos = some x) (hne : totalRows root (tc c!"dos" c!"interpolated") c!"spin 1" ≠ [])
    (h1 : AllPrint 3 (totalRows root (tc c!"dos" c!"interpolated") c!"spin 1")) (h2 : AllPrint 3 (totalRows root (tc c!"dos" c!"interpolated") c!"spin 2"))
    (p1 : partSets root (tc c!"dos" c!"interpolated") c!"spin 1" = [] ∨ Regular (partSets root (tc c!"dos" c!"interpolated") c!"spin 1") ne sp.length 10)
    (p2 : partSets root (tc c!"dos" c!"interpolated") c!"spin 2" = [] ∨ Regular (partSets root (tc c!"dos" c!"interpolated") c!"spin 2") ne sp.length 10) :
    ∃ y, d.dosSpecific = some y ∧ Column 0 (totalRows root (tc c!"dos" c!"interpolated") c!"spin 1") y.energy ∧
      FirstNumber (findAny root (t c!"calculation") [tc c!"dos" c!"interpolated", tn c!"i" c!"efermi"]) y.fermi ∧
      DosBySpin root (tc c!"dos" c!"interpolated") sp.length ne y := by
  have hd := (parts h).dos
  rw [hsp, hx] at hd
  unfold fetchDos at hd
  obtain ⟨r, hr, hd⟩ := Res.bind_eq_ok.1 hd
  cases r with
  | none => injection hd with hd; injection hd with hd1 hd2; cases hd1
  | some x' =>
    simp only at hd
    obtain ⟨s, hs, hd⟩ := Res.bind_eq_ok.1 hd
    injection hd with hd
    injection hd with hd1 hd2
    obtain ⟨y, rfl, g⟩ := oneDos hs ha he hne h1 h2 p1 p2
    exact ⟨y, hd2.symm, g⟩

/-- C55 is false for every other number of columns (four without magnetic quantum numbers, seventeen with f orbitals, four times as many with
noncollinear spins): the partial densities are zeros. -/
theorem C55_violation_columns (sets : List Node) (na ne c : Nat) (h : Regular sets ne na c) (ha : 0 < na) (he : 0 < ne) (hc : c ≠ 10) (hc1 : c ≠ 1) :
    ∃ q, partialOf na (nonEmpty (sets.flatMap rowsIn)) = .ok (some q) ∧ Shape na ne q ∧
      ∀ a e, a < na → e < ne → at2 q a e = some [0, 0, 0, 0, 0, 0, 0, 0, 0] := by
  obtain ⟨q, hq, hs, hv⟩ := partialDos_fit h ha
  refine ⟨q, ?_, hs, fun a e h1 h2 => ?_⟩
  · unfold nonEmpty partialOf
    have : (sets.flatMap rowsIn).isEmpty = false := by simpa using h.rows_ne he ha
    simp only [this, Bool.false_eq_true, if_false, hq, Res.ok_bind]
  · obtain ⟨row, _, g2, g3⟩ := hv a e h1 h2
    rw [g3]
    unfold fitRow
    rw [if_neg (by omega)]
    split
    · simp at g2; omega
    · rfl

/-! ### examples -/

/-- A density of states with two atoms and two energies. -/
def sampleDos : List Node := [item' c!"i" c!"efermi" c!" 5.5 ",
  box c!"total" [box c!"array" [box c!"set" [commented c!"set" c!"spin 1" [leaf c!"r" c!" -1.0 0.5 0.25 ", leaf c!"r" c!" 1.0 1.5 2.0 "]]]],
  box c!"partial" [box c!"array" [box c!"set" [
    commented c!"set" c!"ion 1" [commented c!"set" c!"spin 1" [leaf c!"r" c!" -1.0 1 0 0 0 0 0 0 0 2 ", leaf c!"r" c!" 1.0 3 0 0 0 0 0 0 0 4 "]],
    commented c!"set" c!"ion 2" [commented c!"set" c!"spin 1" [leaf c!"r" c!" -1.0 5 0 0 0 0 0 0 0 6 ", leaf c!"r" c!" 1.0 7 0 0 0 0 0 0 0 8 "]]]]]]

/-- A document with it. -/
def dosDoc : Node := box c!"modeling" [sampleAtoms, box c!"calculation" [box c!"dos" sampleDos]]

example : ∃ d x, parsew dosDoc false true = .ok d ∧ d.species = some [14, 14] ∧ d.dos = some x ∧ x.energy = [-1, 1] ∧ x.fermi = some (11/2) ∧
    x.whole = some ⟨[1/2, 3/2], [1/4, 2], some [[[1, 0, 0, 0, 0, 0, 0, 0, 2], [3, 0, 0, 0, 0, 0, 0, 0, 4]],
      [[5, 0, 0, 0, 0, 0, 0, 0, 6], [7, 0, 0, 0, 0, 0, 0, 0, 8]]]⟩ ∧ (partSets dosDoc (t c!"dos") c!"spin 1").length = 2 := by
  refine ⟨_, _, rfl, by decide +kernel, rfl, by decide +kernel, by decide +kernel, by decide +kernel, rfl⟩

example : (atomLines dosDoc).length = 2 ∧ ∀ rc ∈ atomLines dosDoc, (cellsIn rc).length = 2 ∧ (cellsIn rc)[0]?.bind (fun c => c.text) = some c!"Si " :=
  ⟨rfl, by decide +kernel⟩

/-- C55 is false for a document with an interpolated density of states beside the regular one: the rows of both are taken together, and the
first block of the partial densities, that of the first atom, holds the rows of both atoms. -/
theorem C55_violation_mixed : ∃ d x, parsew (box c!"modeling" [sampleAtoms, box c!"calculation" [box c!"dos" sampleDos,
      commented c!"dos" c!"interpolated" sampleDos]]) false true = .ok d ∧ d.dos = some x ∧ x.energy = [-1, 1, -1, 1] ∧
    x.whole.bind (fun p => p.partials.map fun q => q.map fun b => b.map fun r => r.take 1) = some [[[1], [3], [5], [7]], [[1], [3], [5], [7]]] := by
  refine ⟨_, _, rfl, rfl, by decide +kernel, by decide +kernel⟩

/-- An unknown symbol. -/
example : parsew (box c!"modeling" [box c!"atominfo" [named c!"array" c!"atoms" [box c!"set" [box c!"rc" [leaf c!"c" c!"Fl ", leaf c!"c" c!"   1"]]]]])
    false true = .exit 506 := by decide +kernel

end Verif.Vasprun
