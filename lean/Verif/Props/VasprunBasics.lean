import Verif.Model.Vasprun
import Verif.Props.Chgcar
/-! # vasprun.xml: numbers, blocks of rows and exchanged axes -/
set_option autoImplicit false
namespace Verif.Vasprun
open Verif Verif.Utils Verif.Xml
open Verif.Kpoints (idx toFloat toInt)
open Verif.Chgcar (chunks chunks_length chunks_get chunk_elem list_ext)

/-! ### specification -/

/-- The text of the element consists of these numbers. -/
def Prints (e : Node) (xs : List Rat) : Prop :=
  ∃ s, e.text = some s ∧ List.Forall₂ (fun w x => pyFloatRat w = some x ∧ '_' ∉ w) (words s) xs

/-- An element of a two-dimensional array. -/
def at2 {α : Type} (a : List (List α)) (i j : Nat) : Option α := a[i]?.bind fun r => r[j]?

/-- `m` rows of `n` entries. -/
def Shape {α : Type} (m n : Nat) (a : List (List α)) : Prop := a.length = m ∧ ∀ r ∈ a, r.length = n

/-! ### numbers -/

theorem dropWhile_nil {p : Char → Bool} {s : Str} : s.dropWhile p = [] ↔ ∀ c ∈ s, p c = true := by
  induction s with
  | nil => simp
  | cons x xs ih =>
    by_cases hx : p x = true
    · rw [List.dropWhile_cons_of_pos hx, ih]; simp [hx]
    · rw [List.dropWhile_cons_of_neg hx]; simp [hx]

theorem star_not_number {w : Str} {x : Rat} (h : pyFloatRat w = some x) : startsWith ['*'] w = false := by
  cases w with
  | nil => rfl
  | cons c cs =>
    by_cases hc : c = '*'
    swap
    · simp only [startsWith, Bool.and_true]
      simpa using fun e : '*' = c => hc e.symm
    exfalso
    subst hc
    have h1 : lstrip ('*' :: cs) = '*' :: cs := by simp [lstrip, isSpace]
    have h2 : ∃ t, strip ('*' :: cs) = '*' :: t := by
      unfold strip
      rw [h1]
      obtain ⟨t, ht⟩ := rstrip_prefix ('*' :: cs)
      cases hr : rstrip ('*' :: cs) with
      | nil =>
        have : ('*' :: cs).reverse.dropWhile isSpace = [] := by simpa [rstrip] using hr
        have := dropWhile_nil.1 this '*' (by simp)
        exact absurd this (by decide)
      | cons y ys => rw [hr] at ht; simp only [List.cons_append, List.cons.injEq] at ht; exact ⟨ys, by rw [ht.1]⟩
    obtain ⟨t, h2⟩ := h2
    have h3 : takeSign ('*' :: t) = (false, '*' :: t) := rfl
    have h4 : spanDigits false ('*' :: t) = ([], '*' :: t) := by simp [spanDigits, isDigit]
    have h5 : parseDec false ('*' :: t) = none := by
      unfold parseDec; rw [h4]; simp
    unfold pyFloatRat pyFloat at h
    simp only [h2, h3, h5] at h
    have hl : lower ('*' :: t) = '*' :: lower t := rfl
    rw [hl] at h
    simp at h

theorem fromWords_ok {ws : List Str} {xs : List Rat} (h : List.Forall₂ (fun w x => pyFloatRat w = some x ∧ '_' ∉ w) ws xs) : fromWords ws = .ok xs := by
  induction h with
  | nil => rfl
  | cons hw _ ih =>
    rw [fromWords, if_neg (by rw [star_not_number hw.1]; simp), hw.1]
    simp only [if_neg hw.2, ih, Res.ok_bind]

theorem Prints.fromText {e : Node} {xs : List Rat} (h : Prints e xs) : fromText e = .ok xs := by
  obtain ⟨s, hs, h⟩ := h
  unfold Vasprun.fromText
  rw [hs]
  exact fromWords_ok h

theorem Prints.unique {e : Node} {xs ys : List Rat} (h : Prints e xs) (h' : Prints e ys) : xs = ys := by
  have := h.fromText.symm.trans h'.fromText
  injection this

theorem Prints.length {e : Node} {xs : List Rat} (h : Prints e xs) {s : Str} (hs : e.text = some s) : (words s).length = xs.length := by
  obtain ⟨s', hs', h⟩ := h
  rw [hs] at hs'; injection hs' with hs'; subst hs'
  exact h.length_eq

/-- All elements print `n` numbers. -/
def AllPrint (n : Nat) (es : List Node) : Prop := ∀ e ∈ es, ∃ xs, Prints e xs ∧ xs.length = n

/-- A check that all elements print `n` numbers. -/
def numbers (n : Nat) (es : List Node) : Bool := es.all fun e => match e.text with
  | none => false
  | some s => decide ((words s).length = n) && (words s).all fun w => (pyFloatRat w).isSome && !decide ('_' ∈ w)

theorem allPrint_of {n : Nat} {es : List Node} (h : numbers n es = true) : AllPrint n es := by
  intro e he
  have := List.all_eq_true.1 h e he
  cases ht : e.text with
  | none => rw [ht] at this; cases this
  | some s =>
    rw [ht] at this
    simp only [Bool.and_eq_true, decide_eq_true_eq, List.all_eq_true, Bool.not_eq_true', decide_eq_false_iff_not] at this
    obtain ⟨h1, h2⟩ := this
    refine ⟨(words s).filterMap pyFloatRat, ⟨s, ht, ?_⟩, ?_⟩
    · clear h1
      generalize words s = ws at h2
      induction ws with
      | nil => exact .nil
      | cons w ws ih =>
        obtain ⟨g1, g2⟩ := h2 w (List.mem_cons_self ..)
        obtain ⟨x, hx⟩ := Option.isSome_iff_exists.1 g1
        rw [List.filterMap_cons_some hx]
        exact .cons ⟨hx, g2⟩ (ih fun w h => h2 w (List.mem_cons_of_mem _ h))
    · rw [← h1]
      clear h1
      generalize words s = ws at h2
      induction ws with
      | nil => rfl
      | cons w ws ih =>
        obtain ⟨x, hx⟩ := Option.isSome_iff_exists.1 (h2 w (List.mem_cons_self ..)).1
        rw [List.filterMap_cons_some hx, List.length_cons, ih fun w h => h2 w (List.mem_cons_of_mem _ h)]; rfl

theorem AllPrint.rows {n : Nat} {es : List Node} (h : AllPrint n es) : ∃ rows : Table, List.Forall₂ (fun e r => Prints e r ∧ r.length = n) es rows := by
  induction es with
  | nil => exact ⟨[], .nil⟩
  | cons e es ih =>
    obtain ⟨xs, hx⟩ := h e (List.mem_cons_self ..)
    obtain ⟨rows, hr⟩ := ih fun e he => h e (List.mem_cons_of_mem _ he)
    exact ⟨xs :: rows, .cons hx hr⟩

theorem convert2D_rows {n : Nat} {es : List Node} {rows : Table} (h : List.Forall₂ (fun e r => Prints e r ∧ r.length = n) es rows) :
    convert2D es n = .ok rows := by
  unfold convert2D
  rw [Res.mapM'_eq_ok]
  refine h.imp fun e r hr => ?_
  rw [hr.1.fromText, Res.ok_bind]
  unfold fitRow
  rw [if_pos hr.2]

theorem convert1D_rows {es : List Node} {rows : Table} (h : List.Forall₂ (fun e r => Prints e r ∧ r.length = 1) es rows) :
    ∃ xs : List Rat, convert1D es = .ok xs ∧ rows = xs.map fun x => [x] := by
  unfold convert1D
  induction h with
  | nil => exact ⟨[], rfl, rfl⟩
  | @cons e r es rows hr _ ih =>
    obtain ⟨xs, h1, h2⟩ := ih
    obtain ⟨x, rfl⟩ := List.length_eq_one_iff.1 hr.2
    exact ⟨x :: xs, by rw [Res.mapM', h1, single, hr.1.fromText]; rfl, by rw [h2]; rfl⟩

theorem convert2D_shape {es : List Node} {n : Nat} {a : Table} (h : convert2D es n = .ok a) : Shape es.length n a := by
  unfold convert2D at h
  rw [Res.mapM'_eq_ok] at h
  refine ⟨h.length_eq.symm, ?_⟩
  induction h with
  | nil => simp
  | @cons e r es rs he _ ih =>
    obtain ⟨xs, _, he⟩ := Res.bind_eq_ok.1 he
    injection he with he
    intro r' hr'
    rcases List.mem_cons.1 hr' with rfl | hr'
    · rw [← he]
      unfold fitRow
      split
      · assumption
      · split <;> simp
    · exact ih r' hr'

/-! ### splitting -/

theorem split_ok {α : Type} {n : Nat} {l : List α} {a : List (List α)} :
    split n l = .ok a ↔ 0 < n ∧ l.length % n = 0 ∧ a = chunks (l.length / n) n l := by
  unfold split
  by_cases h0 : n = 0
  · simp [h0]
  · rw [if_neg h0]
    split
    · rename_i h
      simp only [Res.ok.injEq, h, true_and]
      constructor
      · rintro rfl; exact ⟨by omega, rfl⟩
      · rintro ⟨_, rfl⟩; rfl
    · rename_i h; simp [h]

theorem split_of_length {α : Type} {m n : Nat} {l : List α} (hn : 0 < n) (hl : l.length = n * m) : split n l = .ok (chunks m n l) := by
  rw [split_ok]
  refine ⟨hn, by rw [hl]; exact Nat.mul_mod_right n m, ?_⟩
  rw [hl, Nat.mul_div_cancel_left _ hn]

theorem chunks_shape {α : Type} {m n : Nat} {l : List α} (hl : l.length = n * m) : Shape n m (chunks m n l) :=
  ⟨chunks_length .., fun _ hc => chunk_elem hl hc⟩

theorem at2_chunks {α : Type} {m n : Nat} {l : List α} {i j : Nat} (hi : i < n) (hj : j < m) : at2 (chunks m n l) i j = l[i * m + j]? := by
  unfold at2
  rw [chunks_get _ _ _ hi]
  simp only [Option.bind_some]
  rw [List.getElem?_take_of_lt hj, List.getElem?_drop]

/-! ### exchanged axes -/

theorem filterMap_get {α : Type} {a : List (List α)} {j : Nat} (h : ∀ r ∈ a, j < r.length) (i : Nat) :
    (a.filterMap fun r => r[j]?)[i]? = at2 a i j := by
  induction a generalizing i with
  | nil => simp [at2]
  | cons r rs ih =>
    have hr := h r (List.mem_cons_self ..)
    rw [List.filterMap_cons_some (f := fun r : List α => r[j]?) (a := r) (List.getElem?_eq_getElem hr)]
    cases i with
    | zero => simp [at2, List.getElem?_eq_getElem hr]
    | succ i =>
      rw [List.getElem?_cons_succ, ih (fun r hr => h r (List.mem_cons_of_mem _ hr))]
      simp [at2]

theorem filterMap_get_length {α : Type} {a : List (List α)} {j : Nat} (h : ∀ r ∈ a, j < r.length) : (a.filterMap fun r => r[j]?).length = a.length := by
  induction a with
  | nil => rfl
  | cons r rs ih =>
    rw [List.filterMap_cons_some (f := fun r : List α => r[j]?) (a := r) (List.getElem?_eq_getElem (h r (List.mem_cons_self ..)))]
    simp [ih fun r hr => h r (List.mem_cons_of_mem _ hr)]

theorem Shape.swap {α : Type} {m n : Nat} {a : List (List α)} (h : Shape m n a) : Shape n m (swap n a) := by
  unfold Vasprun.swap
  refine ⟨by simp, fun r hr => ?_⟩
  obtain ⟨j, hj, rfl⟩ := List.mem_map.1 hr
  rw [List.mem_range] at hj
  rw [filterMap_get_length fun r hr => by rw [h.2 r hr]; exact hj, h.1]

theorem at2_swap {α : Type} {m n : Nat} {a : List (List α)} (h : Shape m n a) {j : Nat} (hj : j < n) (i : Nat) : at2 (swap n a) j i = at2 a i j := by
  unfold Vasprun.swap
  conv_lhs => unfold at2
  rw [List.getElem?_map, List.getElem?_range hj]
  simp only [Option.map_some, Option.bind_some]
  exact filterMap_get (fun r hr => by rw [h.2 r hr]; exact hj) i

theorem at2_none {α : Type} {m n : Nat} {a : List (List α)} (h : Shape m n a) {i j : Nat} (hij : m ≤ i ∨ n ≤ j) : at2 a i j = none := by
  unfold at2
  cases hr : a[i]? with
  | none => rfl
  | some r =>
    obtain ⟨hi, rfl⟩ := List.getElem?_eq_some_iff.1 hr
    have := h.2 _ (List.getElem_mem hi)
    rcases hij with hij | hij
    · rw [h.1] at hi; omega
    · simp only [Option.bind_some]; rw [List.getElem?_eq_none_iff]; omega

theorem at2_some {α : Type} {m n : Nat} {a : List (List α)} (h : Shape m n a) {i j : Nat} (hi : i < m) (hj : j < n) : ∃ x, at2 a i j = some x := by
  have hi' : i < a.length := by rw [h.1]; exact hi
  have := h.2 _ (List.getElem_mem hi')
  exact ⟨a[i][j], by unfold at2; rw [List.getElem?_eq_getElem hi']; simp⟩

/-- Arrays are equal if they have the same entries. -/
theorem shape_ext {α : Type} {m n : Nat} {a b : List (List α)} (ha : Shape m n a) (hb : Shape m n b)
    (h : ∀ i j, i < m → j < n → at2 a i j = at2 b i j) : a = b := by
  apply List.ext_getElem (by rw [ha.1, hb.1])
  intro i h1 h2
  have l1 := ha.2 _ (List.getElem_mem h1)
  have l2 := hb.2 _ (List.getElem_mem h2)
  apply List.ext_getElem (by rw [l1, l2])
  intro j h3 h4
  have := h i j (by rw [← ha.1]; exact h1) (by rw [← l1]; exact h3)
  unfold at2 at this
  rw [List.getElem?_eq_getElem h1, List.getElem?_eq_getElem h2] at this
  simpa [h3, h4] using this

/-- Column `c` of a two-dimensional array of rows. -/
theorem column_spec {m n w c : Nat} {a : List (List (List Rat))} (h : Shape m n a) (hw : ∀ r ∈ a, ∀ x ∈ r, x.length = w) (hc : c < w) :
    Shape m n (column c a) ∧ ∀ i j, at2 (column c a) i j = (at2 a i j).bind fun x => x[c]? := by
  unfold column
  refine ⟨⟨by simp [h.1], fun r hr => ?_⟩, fun i j => ?_⟩
  · obtain ⟨s, hs, rfl⟩ := List.mem_map.1 hr
    rw [filterMap_get_length fun x hx => by rw [hw s hs x hx]; exact hc, h.2 s hs]
  · conv_lhs => unfold at2
    rw [List.getElem?_map]
    cases hs : a[i]? with
    | none => simp [at2, hs]
    | some s =>
      have hs' := List.mem_of_getElem? hs
      simp only [Option.map_some, Option.bind_some]
      rw [filterMap_get fun x hx => by rw [hw s hs' x hx]; exact hc]
      simp [at2, hs]

/-! ### paths -/

theorem follow_append (a b : List Step) (ns : List Node) : follow (a ++ b) ns = follow b (follow a ns) := by
  induction a generalizing ns with
  | nil => rfl
  | cons s ss ih => exact ih _

theorem findAny_append (root : Node) (s : Step) (a b : List Step) : findAny root s (a ++ b) = follow b (findAny root s a) := follow_append _ _ _

/-- The position of an entry in blocks of the same size. -/
theorem flatMap_get {α β : Type} {f : α → List β} {n : Nat} {l : List α} (h : ∀ a ∈ l, (f a).length = n) {k b : Nat} (hb : b < n) :
    (l.flatMap f)[k * n + b]? = l[k]?.bind fun a => (f a)[b]? := by
  induction l generalizing k with
  | nil => simp
  | cons a as ih =>
    have ha := h a (List.mem_cons_self ..)
    rw [List.flatMap_cons]
    cases k with
    | zero =>
      rw [List.getElem?_append_left (by omega)]
      simp
    | succ k =>
      rw [List.getElem?_append_right (by rw [ha, Nat.add_mul]; omega), ha]
      rw [List.getElem?_cons_succ, ← ih fun a h' => h a (List.mem_cons_of_mem _ h')]
      congr 1
      rw [Nat.add_mul]; omega

theorem flatMap_length {α β : Type} {f : α → List β} {n : Nat} {l : List α} (h : ∀ a ∈ l, (f a).length = n) : (l.flatMap f).length = l.length * n := by
  induction l with
  | nil => simp
  | cons a as ih =>
    rw [List.flatMap_cons, List.length_append, h a (List.mem_cons_self ..), ih fun a h' => h a (List.mem_cons_of_mem _ h'), List.length_cons, Nat.add_mul]
    omega

/-! ### the parser as a whole -/

/-- What the regular parser stores. -/
structure Parts (root : Node) (kbb all : Bool) (d : Data) : Prop where
  params : fetchParams root = .ok d.params
  species : fetchSpecies root = .ok d.species
  upfs : fetchUpfs root d.species all = .ok (d.unitcell, d.positions, d.forces, d.stress)
  kpoints : opt (fun e => convert2D e 3) (findRel root [t c!"kpoints", tn c!"varray" c!"kpointlist", t c!"v"]) = .ok d.kpoints
  kpointsw : opt convert1D (findRel root [t c!"kpoints", tn c!"varray" c!"weights", t c!"v"]) = .ok d.kpointsw
  eigen : fetchEigenvalues root d.params kbb d.kpoints = .ok (d.eigenvalues, d.occupancies)
  special : ∃ s, fetchEigenvaluesSpecific root d.params kbb = .ok s ∧ d.eigenvaluesSpecific = s.map fun s => s.value
  velocities : ∃ s, fetchEigenvelocities root d.params kbb = .ok s ∧ d.eigenvelocities = s.map fun s => s.value
  dos : fetchDos root d.species = .ok (d.dos, d.dosSpecific)
  totens : fetchTotens root = .ok d.totens
  dielectrics : ∃ x, fetchDielectrics root = .ok x ∧ d.dielectrics = some x
  projectors : fetchProjectors root d.params kbb d.species d.kpoints = .ok d.projectors
  hessian : fetchHessian root d.species = .ok d.hessian
  dynmat : fetchDynmat root d.species = .ok d.dynmat
  born : fetchBorn root d.species = .ok d.born
  version : d.version = fetchVersion root
  divisions : fetchDivisions root = .ok d.kpointdiv
  grids : ∃ vel spec, fetchEigenvelocities root d.params kbb = .ok vel ∧ fetchEigenvaluesSpecific root d.params kbb = .ok spec ∧
    d.kpointsSpecific = (specialKpoints vel spec).1 ∧ d.kpointswSpecific = (specialKpoints vel spec).2

theorem parts {root : Node} {kbb all : Bool} {d : Data} (h : parsew root kbb all = .ok d) : Parts root kbb all d := by
  unfold parsew at h
  obtain ⟨p, h1, h⟩ := Res.bind_eq_ok.1 h
  obtain ⟨sp, h2, h⟩ := Res.bind_eq_ok.1 h
  obtain ⟨u, h3, h⟩ := Res.bind_eq_ok.1 h
  obtain ⟨ks, h4, h⟩ := Res.bind_eq_ok.1 h
  obtain ⟨ws, h5, h⟩ := Res.bind_eq_ok.1 h
  obtain ⟨kd, h6, h⟩ := Res.bind_eq_ok.1 h
  obtain ⟨eig, h7, h⟩ := Res.bind_eq_ok.1 h
  obtain ⟨spec, h8, h⟩ := Res.bind_eq_ok.1 h
  obtain ⟨vel, h9, h⟩ := Res.bind_eq_ok.1 h
  obtain ⟨dos, h10, h⟩ := Res.bind_eq_ok.1 h
  obtain ⟨tot, h11, h⟩ := Res.bind_eq_ok.1 h
  obtain ⟨diel, h12, h⟩ := Res.bind_eq_ok.1 h
  obtain ⟨proj, h13, h⟩ := Res.bind_eq_ok.1 h
  obtain ⟨hess, h14, h⟩ := Res.bind_eq_ok.1 h
  obtain ⟨dyn, h15, h⟩ := Res.bind_eq_ok.1 h
  obtain ⟨born, h16, h⟩ := Res.bind_eq_ok.1 h
  have h := (Res.ok.inj h).symm
  subst h
  exact ⟨h1, h2, h3, h4, h5, h7, ⟨spec, h8, rfl⟩, ⟨vel, h9, rfl⟩, h10, h11, ⟨diel, h12, rfl⟩, h13, h14, h15, h16, rfl, h6,
    ⟨vel, spec, h9, h8, rfl, rfl⟩⟩

end Verif.Vasprun
