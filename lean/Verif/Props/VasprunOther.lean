import Verif.Props.VasprunSteps
/-! # vasprun.xml: overflow (C72), input parameters (C75), k-points and response data (C76) -/
set_option autoImplicit false
namespace Verif.Vasprun
open Verif Verif.Utils Verif.Xml
open Verif.Kpoints (idx toFloat toInt)

/-! ### C72 -/

/-- **C72** for single numbers (input parameters, the Fermi level, energies behind the electronic steps): overflow exits with 509. -/
theorem C72_scalar (e : Node) (a b : Str) (h : e.text = some (a ++ c!"****" ++ b)) : convertF e = .exit 509 ∧ convertI e = .exit 509 := by
  have : contains c!"****" (a ++ c!"****" ++ b) = true := (contains_iff ..).2 ⟨a, b, rfl⟩
  unfold convertF convertI
  rw [h]
  simp only [this, if_true, and_self]

theorem fromWords_star {w : Str} {ws : List Str} (h : startsWith ['*'] w = true) : fromWords (w :: ws) = .ok [] := by
  rw [fromWords, if_pos h]

/-- **C72** for lists of single numbers (weights, energies of electronic steps): overflow exits with 509. -/
theorem C72_list (es fs : List Node) (e : Node) (s w : Str) (ws : List Str) (h1 : AllPrint 1 es) (he : e.text = some s) (hw : words s = w :: ws)
    (hs : startsWith ['*'] w = true) : convert1D (es ++ e :: fs) = .exit 509 := by
  have hx : single e = .exit 509 := by
    unfold single fromText
    rw [he]
    simp only [hw, fromWords_star hs, Res.ok_bind]
  unfold convert1D
  induction es with
  | nil => rw [List.nil_append, Res.mapM', hx]
  | cons a as ih =>
    obtain ⟨xs, hp, hl⟩ := h1 a (List.mem_cons_self ..)
    obtain ⟨x, rfl⟩ := List.length_eq_one_iff.1 hl
    have : single a = .ok x := by unfold single; rw [hp.fromText]; rfl
    rw [List.cons_append, Res.mapM', this, ih fun e he => h1 e (List.mem_cons_of_mem _ he)]

/-- **C72** for rows (k-points, cells, forces, eigenvalues, densities, projections ..): rows that print the right number of numbers are stored as they are. Missing: other rows, for which the claim is false (`C72_violation_*`). -/
theorem C72_rows_partial (es : List Node) (n : Nat) (h : AllPrint n es) : ∃ rows, convert2D es n = .ok rows ∧ List.Forall₂ Prints es rows := by
  obtain ⟨rows, hr⟩ := h.rows
  exact ⟨rows, convert2D_rows hr, hr.imp fun _ _ h => h.1⟩

/-- C72 is false for rows: a row that overflows in the first number is stored as zeros, whatever its length. -/
theorem C72_violation_overflow (e : Node) (s w : Str) (ws : List Str) (n : Nat) (he : e.text = some s) (hw : words s = w :: ws)
    (hs : startsWith ['*'] w = true) : convert2D [e] n = .ok [List.replicate n 0] := by
  unfold convert2D fromText
  rw [Res.mapM', he]
  simp only [hw, fromWords_star hs, Res.ok_bind]
  unfold fitRow
  cases n with
  | zero => rfl
  | succ n => rw [if_neg (by simp)]; rfl

/-- C72 is false for rows: if the second number overflows the first is stored in all places. -/
theorem C72_violation_spread (e : Node) (s v w : Str) (ws : List Str) (x : Rat) (n : Nat) (he : e.text = some s) (hw : words s = v :: w :: ws)
    (hv : pyFloatRat v = some x) (hu : '_' ∉ v) (hs : startsWith ['*'] w = true) : convert2D [e] n = .ok [List.replicate n x] := by
  have h1 : fromWords (v :: w :: ws) = .ok [x] := by
    rw [fromWords, if_neg (by rw [star_not_number hv]; simp), hv]
    simp only [if_neg hu, fromWords_star hs, Res.ok_bind]
  unfold convert2D fromText
  rw [Res.mapM', he]
  simp only [hw, h1, Res.ok_bind]
  unfold fitRow
  by_cases hn : n = 1
  · subst hn; rfl
  · rw [if_neg (by simpa using fun h => hn h.symm)]; rfl

example : (leaf c!"v" c!" 1.5 ******** 2.0").text = some c!" 1.5 ******** 2.0" ∧ words c!" 1.5 ******** 2.0" = [c!"1.5", c!"********", c!"2.0"] ∧
    pyFloatRat c!"1.5" = some (3/2) := by decide +kernel

/-- The forces in an accepted document: the overflowed row has the first number three times. -/
example : ∃ d, parsew (box c!"modeling" [atomList 1, box c!"calculation" [box c!"structure" [],
      named c!"varray" c!"forces" [leaf c!"v" c!" 1.5 ******** 2.0"]]]) false true = .ok d ∧
    getSteps d.forces c!"last" = .ok (.one (some [[3/2, 3/2, 3/2]])) := ⟨_, rfl, by decide +kernel⟩

/-! ### C75: input parameters -/

/-- The whole number printed in the first of some elements, if there is one with text. -/
def FirstInt (es : List Node) (r : Option Int) : Prop :=
  match es with
  | [] => r = none
  | e :: _ => match e.text with
    | none => r = none
    | some s => ∃ x, pyInt s = some x ∧ r = some x

/-- The elements about an input parameter: below `parameters`, in nested separators. -/
def parameter (root : Node) (separators : List Str) (name : Str) : List Node :=
  findAny root (t c!"parameters") (separators.map (tn c!"separator") ++ [tn c!"i" name])

theorem fetchI_ok {es : List Node} {r : Option Int} (h : fetch convertI es = .ok r) : FirstInt es r := by
  unfold fetch at h
  unfold FirstInt
  cases es with
  | nil => injection h with h; exact h.symm
  | cons e es =>
    simp only at h ⊢
    unfold convertI at h
    cases ht : e.text with
    | none => rw [ht] at h; injection h with h; exact h.symm
    | some s =>
      rw [ht] at h
      simp only at h ⊢
      split at h
      · cases h
      · obtain ⟨x, hx, h⟩ := Res.bind_eq_ok.1 h
        injection h with h
        unfold toInt at hx
        cases hp : pyInt s with
        | none => rw [hp] at hx; cases hx
        | some y => rw [hp] at hx; injection hx with hx; subst hx; exact ⟨y, rfl, h.symm⟩

/-- **C75**: in an accepted document every input parameter is what is printed for it (the first place counts), `None` if it is not printed. -/
theorem C75_parameters (root : Node) (kbb all : Bool) (d : Data) (h : parsew root kbb all = .ok d) :
    FirstNumber (parameter root [c!"symmetry"] c!"SYMPREC") d.params.symprec ∧
    FirstNumber (parameter root [c!"electronic", c!"electronic smearing"] c!"SIGMA") d.params.sigma ∧
    FirstInt (parameter root [c!"electronic", c!"electronic smearing"] c!"ISMEAR") d.params.ismear ∧
    FirstInt (parameter root [c!"electronic", c!"electronic spin"] c!"ISPIN") d.params.ispin ∧
    FirstInt (parameter root [c!"electronic"] c!"NBANDS") d.params.nbands ∧
    FirstNumber (parameter root [c!"electronic"] c!"NELECT") d.params.nelect ∧
    d.params.system = ((parameter root [c!"general"] c!"SYSTEM").head?.bind fun e => e.text) ∧
    FirstInt (parameter root [c!"electronic", c!"electronic convergence"] c!"NELM") d.params.nelm ∧
    FirstInt (parameter root [c!"ionic"] c!"NSW") d.params.nsw := by
  have hp := (parts h).params
  unfold fetchParams at hp
  obtain ⟨p1, h1, hp⟩ := Res.bind_eq_ok.1 hp
  obtain ⟨p2, h2, hp⟩ := Res.bind_eq_ok.1 hp
  obtain ⟨p3, h3, hp⟩ := Res.bind_eq_ok.1 hp
  obtain ⟨p4, h4, hp⟩ := Res.bind_eq_ok.1 hp
  obtain ⟨p5, h5, hp⟩ := Res.bind_eq_ok.1 hp
  obtain ⟨p6, h6, hp⟩ := Res.bind_eq_ok.1 hp
  obtain ⟨p7, h7, hp⟩ := Res.bind_eq_ok.1 hp
  obtain ⟨p8, h8, hp⟩ := Res.bind_eq_ok.1 hp
  obtain ⟨p9, h9, hp⟩ := Res.bind_eq_ok.1 hp
  rw [← Res.ok.inj hp]
  refine ⟨fetchF_ok h1, fetchF_ok h2, fetchI_ok h3, fetchI_ok h4, fetchI_ok h5, fetchF_ok h6, ?_, fetchI_ok h8, fetchI_ok h9⟩
  change p7 = ((parameter root [c!"general"] c!"SYSTEM").head?.bind fun e => e.text)
  change fetch textOf (parameter root [c!"general"] c!"SYSTEM") = .ok p7 at h7
  cases hq : parameter root [c!"general"] c!"SYSTEM" with
  | nil => rw [hq] at h7; injection h7 with h7; rw [← h7]; rfl
  | cons e es => rw [hq] at h7; injection h7 with h7; rw [← h7]; rfl

example : ∃ d, parsew (box c!"modeling" [box c!"parameters" [named c!"separator" c!"general" [item' c!"i" c!"SYSTEM" c!"diamond"],
      named c!"separator" c!"electronic" [item' c!"i" c!"NBANDS" c!"  12", item' c!"i" c!"NELECT" c!" 8.5 ",
        named c!"separator" c!"electronic smearing" [item' c!"i" c!"ISMEAR" c!" -5", item' c!"i" c!"SIGMA" c!" 0.25"]]]]) false true = .ok d ∧
    d.params = { system := some c!"diamond", nbands := some 12, nelect := some (17/2), ismear := some (-5), sigma := some (1/4) } :=
  ⟨_, rfl, by decide +kernel⟩

/-! ### C76: k-points and response data -/

/-- What is printed in rows, behind the first `drop` numbers; `None` without rows. -/
def RowsOf (drop : Nat) (es : List Node) (x : Option Table) : Prop :=
  (es = [] ∧ x = none) ∨ (es ≠ [] ∧ ∃ rows, x = some rows ∧ List.Forall₂ (fun e r => ∃ full, Prints e full ∧ r = full.drop drop) es rows)

theorem opt_rows {n : Nat} {es : List Node} (h : AllPrint n es) :
    ∃ x, opt (fun e => convert2D e n) es = .ok x ∧ RowsOf 0 es x ∧ RowsOf 1 es (x.map fun d => d.map (List.drop 1)) ∧
      (0 < n → (es = [] ∧ x = none) ∨ (es ≠ [] ∧ ∃ c, x.map (tableColumn 0) = some c ∧ Column 0 es c)) := by
  obtain ⟨rows, hr⟩ := h.rows
  cases es with
  | nil => exact ⟨none, rfl, .inl ⟨rfl, rfl⟩, .inl ⟨rfl, rfl⟩, fun _ => .inl ⟨rfl, rfl⟩⟩
  | cons a as =>
    refine ⟨some rows, by unfold opt; simp only; rw [convert2D_rows hr]; rfl, .inr ⟨by simp, rows, rfl, hr.imp fun _ r h => ⟨r, h.1, rfl⟩⟩,
      .inr ⟨by simp, _, rfl, ?_⟩, fun hn => .inr ⟨by simp, _, rfl, tableColumn_spec hr hn⟩⟩
    rw [List.forall₂_map_right_iff]
    exact hr.imp fun _ r h => ⟨r, h.1, rfl⟩

/-- The rows of a part of the dielectric function. -/
def dielRows (root : Node) (part : Str) : List Node :=
  findAny root (t c!"calculation") [t c!"dielectricfunction", t part, t c!"array", t c!"set", t c!"r"]
/-- The rows of a table in the calculation. -/
def tableRows (root : Node) (name : Str) : List Node := findAny root (t c!"calculation") [tn c!"varray" name, t c!"v"]

/-- **C76** for the dielectric function and tensors: the energies are the first column of the imaginary part, the other six columns are the
components. -/
theorem C76_dielectrics (root : Node) (kbb all : Bool) (d : Data) (h : parsew root kbb all = .ok d) (h1 : AllPrint 7 (dielRows root c!"imag"))
    (h2 : AllPrint 7 (dielRows root c!"real")) (h3 : AllPrint 3 (tableRows root c!"epsilon")) (h4 : AllPrint 3 (tableRows root c!"epsilon_ion")) :
    ∃ x, d.dielectrics = some x ∧ RowsOf 1 (dielRows root c!"imag") x.imag ∧ RowsOf 1 (dielRows root c!"real") x.real ∧
      RowsOf 0 (tableRows root c!"epsilon") x.epsilon ∧ RowsOf 0 (tableRows root c!"epsilon_ion") x.epsilonIon ∧
      ((dielRows root c!"imag" = [] ∧ x.energy = none) ∨ ∃ c, x.energy = some c ∧ Column 0 (dielRows root c!"imag") c) := by
  obtain ⟨x, hx, hd⟩ := (parts h).dielectrics
  refine ⟨x, hd, ?_⟩
  obtain ⟨im, i1, i2, i3, i4⟩ := opt_rows h1
  obtain ⟨re, r1, r2, r3, r4⟩ := opt_rows h2
  obtain ⟨ep, e1, e2, _, _⟩ := opt_rows h3
  obtain ⟨io, o1, o2, _, _⟩ := opt_rows h4
  have hx' : fetchDielectrics root = (opt (fun e => convert2D e 7) (dielRows root c!"imag") >>= fun im =>
    opt (fun e => convert2D e 7) (dielRows root c!"real") >>= fun re => opt (fun e => convert2D e 3) (tableRows root c!"epsilon") >>= fun eps =>
    opt (fun e => convert2D e 3) (tableRows root c!"epsilon_ion") >>= fun ion =>
    .ok ⟨im.map (tableColumn 0), im.map fun d => d.map (List.drop 1), re.map fun d => d.map (List.drop 1), eps, ion⟩) := rfl
  rw [hx', i1, Res.ok_bind, r1, Res.ok_bind, e1, Res.ok_bind, o1, Res.ok_bind] at hx
  rw [← Res.ok.inj hx]
  refine ⟨i3, r3, e2, o2, ?_⟩
  rcases i4 (by omega) with ⟨g1, g2⟩ | ⟨g1, g2⟩
  · exact .inl ⟨g1, by rw [g2]; rfl⟩
  · exact .inr g2

theorem ints_of {ws : List Str} {is : List Int} (h : List.Forall₂ (fun w i => (match pyInt w with
    | some i => Res.ok i
    | none => .raise .outOfModel) = .ok i) ws is) : ws.map pyInt = is.map some := by
  induction h with
  | nil => rfl
  | @cons w i ws is hw _ ih =>
    rw [List.map_cons, List.map_cons, ih]
    cases hp : pyInt w with
    | none => rw [hp] at hw; cases hw
    | some y => rw [hp] at hw; injection hw with hw; rw [hw]

/-- **C76** for the k-points, their weights and the divisions of the grid. -/
theorem C76_kpoints (root : Node) (kbb all : Bool) (d : Data) (h : parsew root kbb all = .ok d)
    (h1 : AllPrint 3 (findRel root [t c!"kpoints", tn c!"varray" c!"kpointlist", t c!"v"]))
    (h2 : AllPrint 1 (findRel root [t c!"kpoints", tn c!"varray" c!"weights", t c!"v"])) :
    RowsOf 0 (findRel root [t c!"kpoints", tn c!"varray" c!"kpointlist", t c!"v"]) d.kpoints ∧
    (if findRel root [t c!"kpoints", tn c!"varray" c!"weights", t c!"v"] = [] then d.kpointsw = none
      else ∃ ws, d.kpointsw = some ws ∧ List.Forall₂ (fun e x => Prints e [x]) (findRel root [t c!"kpoints", tn c!"varray" c!"weights", t c!"v"]) ws) ∧
    ((findRel root [t c!"kpoints", t c!"generation", tn c!"v" c!"divisions"]).head?.bind fun e => e.text).map
      (fun s => (words s).map pyInt) = d.kpointdiv.map fun l => l.map some := by
  obtain ⟨x, hx, hr, _⟩ := opt_rows h1
  have hk := (parts h).kpoints
  rw [hx] at hk
  rw [← Res.ok.inj hk]
  refine ⟨hr, ?_, ?_⟩
  · have hw := (parts h).kpointsw
    obtain ⟨ws, g1, g2⟩ := convert1D_forall h2
    generalize findRel root [t c!"kpoints", tn c!"varray" c!"weights", t c!"v"] = l at hw g1 g2
    cases l with
    | nil => rw [if_pos rfl]; injection hw with hw; exact hw.symm
    | cons a as =>
      rw [if_neg (by simp)]
      unfold opt at hw
      simp only [g1, Res.ok_bind] at hw
      injection hw with hw
      exact ⟨ws, hw.symm, g2⟩
  · have hv := (parts h).divisions
    unfold fetchDivisions at hv
    cases hq : findRel root [t c!"kpoints", t c!"generation", tn c!"v" c!"divisions"] with
    | nil => rw [hq] at hv; injection hv with hv; rw [← hv]; rfl
    | cons e es =>
      rw [hq] at hv
      simp only at hv
      obtain ⟨x, hx, hv⟩ := Res.bind_eq_ok.1 hv
      injection hv with hv
      rw [← hv]
      unfold convertArrayI at hx
      cases ht : e.text with
      | none => rw [ht] at hx; cases hx
      | some s =>
        rw [ht] at hx
        simp only at hx
        rw [Res.mapM'_eq_ok] at hx
        simp only [List.head?_cons, Option.bind_some, ht, Option.map_some, Option.some.injEq]
        exact ints_of hx

/-- The rows of the Hessian. -/
def hessianRows (root : Node) : List Node := findAny root (t c!"calculation") [t c!"dynmat", tn c!"varray" c!"hessian", t c!"v"]

/-- **C76** for the Hessian: 3N numbers in each row. -/
theorem C76_hessian (root : Node) (kbb all : Bool) (d : Data) (h : parsew root kbb all = .ok d) (sp : List Nat) (hsp : d.species = some sp)
    (h1 : AllPrint (sp.length * 3) (hessianRows root)) : RowsOf 0 (hessianRows root) d.hessian := by
  have hh := (parts h).hessian
  obtain ⟨x, hx, hr, _⟩ := opt_rows h1
  have : fetchHessian root d.species = opt (fun e => convert2D e (sp.length * 3)) (hessianRows root) := by
    unfold fetchHessian opt
    rw [hsp]; rfl
  rw [this, hx] at hh
  rw [← Res.ok.inj hh]; exact hr

/-- The element with the eigenvectors of the dynamical matrix. -/
def modesSets (root : Node) : List Node := findAny root (t c!"calculation") [t c!"dynmat", tn c!"varray" c!"eigenvectors"]

/-- **C76** for the dynamical matrix: the eigenvalues and the eigenvectors (3N numbers each) of the first such elements. -/
theorem C76_dynmat (root : Node) (kbb all : Bool) (d : Data) (h : parsew root kbb all = .ok d) (sp : List Nat) (hsp : d.species = some sp)
    (e v : Node) (es vs : List Node) (he : findAny root (t c!"calculation") [t c!"dynmat", tn c!"v" c!"eigenvalues"] = e :: es)
    (hv : modesSets root = v :: vs) (xs : List Rat) (hx : Prints e xs) (h1 : AllPrint (sp.length * 3) v.children) :
    ∃ rows, d.dynmat = some (xs, rows) ∧ List.Forall₂ Prints v.children rows := by
  have hd := (parts h).dynmat
  unfold fetchDynmat at hd
  rw [he, hsp] at hd
  simp only at hd
  change (fromText e >>= fun ev => match modesSets root with
    | [] => (Res.ok none : Res (Option (List Rat × Table)))
    | v :: _ => convert2D v.children (sp.length * 3) >>= fun x => .ok (some (ev, x))) = _ at hd
  obtain ⟨rows, hr⟩ := h1.rows
  rw [hx.fromText, Res.ok_bind, hv] at hd
  simp only [convert2D_rows hr, Res.ok_bind] at hd
  injection hd with hd
  exact ⟨rows, hd.symm, hr.imp fun _ _ h => h.1⟩

/-- The elements with the Born charges, one for each atom. -/
def bornSets (root : Node) : List Node := findAny root (t c!"calculation") [tn c!"array" c!"born_charges", t c!"set"]

/-- **C76** for Born charges: entry `a` is the table of atom `a`. -/
theorem C76_born (root : Node) (kbb all : Bool) (d : Data) (h : parsew root kbb all = .ok d) (sp : List Nat) (hsp : d.species = some sp)
    (ha : 0 < sp.length) (hb : PerStep (bornSets root) sp.length 3) :
    ∃ b, d.born = some (.charges b) ∧ b.length = sp.length ∧ ∀ a, a < sp.length → ∃ x, StepTable (bornSets root) a x ∧ b[a]? = some x := by
  have hd := (parts h).born
  unfold fetchBorn at hd
  have e1 : findAny root (t c!"calculation") [tn c!"array" c!"born_charges", t c!"set", t c!"v"] = (bornSets root).flatMap vIn := by
    rw [← follow_v, bornSets, ← findAny_append]; rfl
  obtain ⟨rows, hr⟩ := hb.allPrint.rows
  have hl : rows.length = sp.length * 3 := by rw [← hr.length_eq, hb.length]
  have hne : (bornSets root).flatMap vIn ≠ [] := by
    intro e
    have := hb.length
    rw [e, List.length_nil] at this; omega
  rw [e1, hsp] at hd
  have hd : (convert2D ((bornSets root).flatMap vIn) 3 >>= fun x => split sp.length x >>= fun b => Res.ok (some (Born.charges b))) = .ok d.born := by
    generalize (bornSets root).flatMap vIn = l at hd hne
    cases l with
    | nil => exact absurd rfl hne
    | cons a as => exact hd
  rw [convert2D_rows hr, Res.ok_bind, split_of_length ha hl, Res.ok_bind] at hd
  injection hd with hd
  refine ⟨_, hd.symm, Chgcar.chunks_length .., fun a hlt => ?_⟩
  have hlt' : a < (bornSets root).length := by rw [hb.1]; exact hlt
  rw [Chgcar.chunks_get _ _ _ hlt]
  refine ⟨_, ⟨_, List.getElem?_eq_getElem hlt', ?_⟩, rfl⟩
  rw [← flatMap_block (fun s hs => (hb.2 s hs).1) hlt']
  exact forall2_take (forall2_drop (hr.imp fun _ _ h => h.1) _) _

/-- A document with response data for one atom. -/
def responseDoc : Node := box c!"modeling" [atomList 1,
  box c!"kpoints" [box c!"generation" [item' c!"v" c!"divisions" c!" 2 3 4 "], named c!"varray" c!"kpointlist" [leaf c!"v" c!" 0.5 0.0 0.0 "],
    named c!"varray" c!"weights" [leaf c!"v" c!" 0.125 "]],
  box c!"calculation" [named c!"array" c!"born_charges" [box c!"set" (rows3 c!"1 2 3" c!"4 5 6" c!"7 8 9")], named c!"varray" c!"epsilon" (rows3 c!"1 2 3" c!"4 5 6" c!"7 8 9"),
    box c!"dielectricfunction" [box c!"imag" [box c!"array" [box c!"set" [leaf c!"r" c!" 0.5 1 2 3 4 5 6 "]]]],
    box c!"dynmat" [named c!"varray" c!"hessian" (rows3 c!"1 2 3" c!"4 5 6" c!"7 8 9"), item' c!"v" c!"eigenvalues" c!" 1.5 2.5 3.5 ",
      named c!"varray" c!"eigenvectors" (rows3 c!"1 0 0" c!"0 1 0" c!"0 0 1")]]]

example : ∃ d, parsew responseDoc false true = .ok d ∧ d.species = some [14] ∧ d.born = some (.charges [[[1, 2, 3], [4, 5, 6], [7, 8, 9]]]) ∧
    d.dielectrics = some ⟨some [1/2], some [[1, 2, 3, 4, 5, 6]], none, some [[1, 2, 3], [4, 5, 6], [7, 8, 9]], none⟩ ∧
    d.hessian = some [[1, 2, 3], [4, 5, 6], [7, 8, 9]] ∧ d.dynmat = some ([3/2, 5/2, 7/2], [[1, 0, 0], [0, 1, 0], [0, 0, 1]]) ∧
    d.kpoints = some [[1/2, 0, 0]] ∧ d.kpointsw = some [1/8] ∧ d.kpointdiv = some [2, 3, 4] ∧ PerStep (bornSets responseDoc) 1 3 :=
  ⟨_, rfl, by decide +kernel, by decide +kernel, by decide +kernel, by decide +kernel, by decide +kernel, by decide +kernel, by decide +kernel,
    by decide +kernel, perStep_of (by decide +kernel)⟩

end Verif.Vasprun
