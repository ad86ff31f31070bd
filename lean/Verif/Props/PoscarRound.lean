import Verif.Props.PoscarRead
import Verif.Props.Lattice
import Verif.Lemmas.Poscar
import Verif.Props.KpointsRound
/-! # POSCAR write/read round trip (C15) -/
set_option autoImplicit false
namespace Verif.Poscar
open Verif Verif.Utils Verif.Lattice
open Verif.Kpoints (idx toFloat toInt)

/-! ### specification -/

/-- The comment as it is stored: a string or `None`. -/
def commentVal : Option Str → Val
  | some s => .str s
  | Option.none => .none

/-- The object holds a comment (`none`: `None`), a cell and sites in direct coordinates. -/
structure Holds (e : Entries) (cm : Option Str) (c : Cell) (sites : List Site) : Prop where
  comment : e.get? c!"comment" = some (commentVal cm)
  cell : e.get? c!"unitcell" = some (.cell (some c))
  stored : e.get? c!"sites" = some (.sites (sites.map .site))
  direct : ∀ s ∈ sites, s.direct = true

/-- What text output can carry: the comment is one line, a species name is a word that is not a number literal. -/
structure Printable (cm : Option Str) (sites : List Site) : Prop where
  comment : ∀ s, cm = some s → Free isLineBreak s
  names : ∀ s ∈ sites, Token s.getSpecie ∧ pyFloat s.getSpecie = none

/-- A cell with its numbers rounded. -/
def roundM (prec : Nat) (c : Cell) : Cell := ⟨roundV prec c.a, roundV prec c.b, roundV prec c.c⟩

/-- A vector `v` in cell `c` and the vector `v'` read back in the rounded cell: rounded direct coordinates, or rounded cartesian
coordinates, are the same. -/
def SameVec (prec : Nat) (direct : Bool) (c : Cell) (v v' : Vec) : Prop :=
  if direct then v' = roundV prec v else dirToCart v' (roundM prec c) = roundV prec (dirToCart v c)

/-- A site and the site read back. -/
structure SameSite (prec : Nat) (direct : Bool) (c : Cell) (s s' : Site) : Prop where
  specie : s'.getSpecie = s.getSpecie
  selective : s'.selective = s.selective
  position : SameVec prec direct c s.position s'.position
  velocities : match s.velocities, s'.velocities with
    | some v, some v' => SameVec prec direct c v v'
    | Option.none, Option.none => True
    | _, _ => False
  predictors : s'.predictors = s.predictors.map (roundV prec)
  direct : s'.direct = true

/-! ### what the writer gets -/

/-- Facts about the groups the writer prints. -/
structure WellGrouped (g : Grouped) : Prop where
  lengths : g.nums.length = g.species.length
  positive : ∀ n ∈ g.nums, 0 < n
  expand : expand g.species g.nums = g.sites.map Site.getSpecie
  selective : g.selective = g.sites.any Site.frozen
  velocities : g.velocities = g.sites.any (·.velocities.isSome)
  predictors : g.predictors = g.sites.any (·.predictors.isSome)

theorem any_perm {α} {p : α → Bool} {a b : List α} (h : a.Perm b) : a.any p = b.any p := by
  rw [Bool.eq_iff_iff, List.any_eq_true, List.any_eq_true]
  constructor
  · rintro ⟨x, hx, hp⟩; exact ⟨x, h.mem_iff.1 hx, hp⟩
  · rintro ⟨x, hx, hp⟩; exact ⟨x, h.mem_iff.2 hx, hp⟩

theorem Holds.stores {e : Entries} {cm : Option Str} {c : Cell} {sites : List Site} (h : Holds e cm c sites) : Stores e sites :=
  ⟨h.stored, h.direct⟩

theorem wellGrouped_group {sites : List Site} (hd : ∀ s ∈ sites, s.direct = true) (conserve : Bool) :
    WellGrouped (group conserve sites) ∧ (group conserve sites).sites.Perm sites := by
  have hst : Stores [(c!"sites", .sites (sites.map .site))] sites := ⟨rfl, hd⟩
  cases conserve with
  | true =>
    obtain ⟨g, hg, h1, h2, h3, h4, h5⟩ := C13_conserve _ sites hst
    rw [sortAndGroup_stores hst true] at hg
    cases hg
    refine ⟨⟨h2, h5, by rw [h3, h1], ?_, ?_, ?_⟩, by rw [h1]⟩ <;> rfl
  | false =>
    obtain ⟨g, hg, h1, h2, h3, h4, h5, h6, h7, h8⟩ := C12_grouping _ sites hst
    rw [sortAndGroup_stores hst false] at hg
    cases hg
    refine ⟨⟨h3, ?_, h4.symm, ?_, ?_, ?_⟩, h1⟩
    · intro n hn
      rw [h5] at hn
      obtain ⟨k, hk, rfl⟩ := List.mem_map.1 hn
      exact h6 k hk
    · rw [any_perm h1]; rfl
    · rw [any_perm h1]; rfl
    · rw [any_perm h1]; rfl

theorem mem_expand {species : List Str} {nums : List Nat} (hl : nums.length = species.length) (hp : ∀ n ∈ nums, 0 < n) {s : Str}
    (hs : s ∈ species) : s ∈ expand species nums := by
  induction species generalizing nums with
  | nil => simp at hs
  | cons t ts ih =>
    cases nums with
    | nil => simp at hl
    | cons n ns =>
      rw [expand_cons, List.mem_append]
      rcases List.mem_cons.1 hs with rfl | hs
      · left
        rw [List.mem_replicate]
        exact ⟨by have := hp n (by simp); omega, rfl⟩
      · right
        exact ih (by simpa using hl) (fun m hm => hp m (by simp [hm])) hs

theorem species_mem {g : Grouped} (hg : WellGrouped g) {k : Str} (hk : k ∈ g.species) : ∃ s ∈ g.sites, s.getSpecie = k := by
  have := mem_expand hg.lengths hg.positive hk
  rw [hg.expand] at this
  exact List.mem_map.1 this

theorem length_expand {species : List Str} {nums : List Nat} (hl : nums.length = species.length) :
    (expand species nums).length = nums.sum := by
  induction species generalizing nums with
  | nil => cases nums with
    | nil => rfl
    | cons n ns => simp at hl
  | cons t ts ih =>
    cases nums with
    | nil => simp at hl
    | cons n ns => rw [expand_cons, List.length_append, ih (by simpa using hl)]; simp

/-! ### the text -/

/-- The coordinate line. -/
def coordLine (direct : Bool) : Str := if direct then c!"Direct" else c!"Cartesian"

/-- The first seven lines. -/
def headLines (prec : Nat) (comment : Val) (c : Cell) (g : Grouped) : List Str :=
  [headline (compound g.species g.nums) comment, fmtFixed (prec + 4) prec 1, vecLine prec c.a, vecLine prec c.b, vecLine prec c.c,
    speciesLine g.species, countLine g.nums]

/-- The optional selective line and the coordinate line. -/
def modeLines (direct : Bool) (g : Grouped) : List Str :=
  (if g.selective then [c!"Selective dynamics"] else []) ++ [coordLine direct]

/-- Velocities as printed. -/
def velLines (prec : Nat) (direct : Bool) (c : Cell) (vels : List Vec) : List Str :=
  coordLine direct :: vels.map fun v => vecLine prec (if direct then v else dirToCart v c)

/-- Predictors as printed. -/
def predLines (prec : Nat) (preds : List Vec) : List Str := [] :: preds.map (vecLine prec)

/-- All lines. -/
def fileLines (prec : Nat) (direct : Bool) (comment : Val) (c : Cell) (g : Grouped) (vels preds : Option (List Vec)) : List Str :=
  headLines prec comment c g ++ modeLines direct g ++ g.sites.map (posLine prec direct c g.selective) ++
    (match vels with | some v => velLines prec direct c v | Option.none => []) ++
    (match preds with | some v => predLines prec v | Option.none => [])

/-- The vectors of all sites, if there are any. -/
def Gathered (f : Site → Option Vec) (sites : List Site) (o : Option (List Vec)) : Prop :=
  match o with
  | some vs => sites ≠ [] ∧ sites.map f = vs.map some
  | Option.none => ∀ s ∈ sites, f s = Option.none

theorem mapM'_velLine {prec : Nat} {direct : Bool} {c : Cell} {sites : List Site} {ls : List Str}
    (h : Res.mapM' (velLine prec direct c) sites = .ok ls) :
    ∃ vs : List Vec, sites.map Site.velocities = vs.map some ∧ ls = vs.map fun v => vecLine prec (if direct then v else dirToCart v c) := by
  induction sites generalizing ls with
  | nil => cases h; exact ⟨[], rfl, rfl⟩
  | cons s ss ih =>
    rw [Res.mapM'_eq_ok] at h
    cases h with
    | cons h1 h2 =>
      obtain ⟨vs, hv, rfl⟩ := ih (Res.mapM'_eq_ok.2 h2)
      unfold velLine at h1
      cases hsv : s.velocities with
      | none => rw [hsv] at h1; cases h1
      | some v =>
        rw [hsv] at h1
        cases h1
        exact ⟨v :: vs, by simp [hsv, hv], rfl⟩

theorem mapM'_predLine {prec : Nat} {sites : List Site} {ls : List Str} (h : Res.mapM' (predLine prec) sites = .ok ls) :
    ∃ vs : List Vec, sites.map Site.predictors = vs.map some ∧ ls = vs.map (vecLine prec) := by
  induction sites generalizing ls with
  | nil => cases h; exact ⟨[], rfl, rfl⟩
  | cons s ss ih =>
    rw [Res.mapM'_eq_ok] at h
    cases h with
    | cons h1 h2 =>
      obtain ⟨vs, hv, rfl⟩ := ih (Res.mapM'_eq_ok.2 h2)
      unfold predLine at h1
      cases hsv : s.predictors with
      | none => rw [hsv] at h1; cases h1
      | some v =>
        rw [hsv] at h1
        cases h1
        exact ⟨v :: vs, by simp [hsv, hv], rfl⟩

theorem any_isSome_true {f : Site → Option Vec} {sites : List Site} (h : sites.any (fun s => (f s).isSome) = true) : sites ≠ [] := by
  rintro rfl; simp at h

theorem any_isSome_false {f : Site → Option Vec} {sites : List Site} (h : sites.any (fun s => (f s).isSome) = false) :
    ∀ s ∈ sites, f s = Option.none := by
  intro s hs
  rw [List.any_eq_false] at h
  have := h s hs
  simpa using this

theorem writeGrouped_ok {prec : Nat} {direct : Bool} {comment : Val} {c : Cell} {g : Grouped} (hg : WellGrouped g) {text : Str}
    (h : writeGrouped prec direct comment c g = .ok text) :
    ∃ vels preds, Gathered Site.velocities g.sites vels ∧ Gathered Site.predictors g.sites preds ∧
      text = unlines (fileLines prec direct comment c g vels preds) := by
  unfold writeGrouped at h
  dsimp only at h
  obtain ⟨vs, hvs, h⟩ := Res.bind_eq_ok.1 h
  obtain ⟨ps, hps, h⟩ := Res.bind_eq_ok.1 h
  cases h
  have hv : ∃ vels, Gathered Site.velocities g.sites vels ∧
      vs = (match vels with | some v => velLines prec direct c v | Option.none => []) := by
    split at hvs
    · rename_i hb
      obtain ⟨ls, hls, h⟩ := Res.bind_eq_ok.1 hvs
      cases h
      obtain ⟨vels, h1, h2⟩ := mapM'_velLine hls
      refine ⟨some vels, ⟨?_, h1⟩, by rw [h2]; rfl⟩
      rw [hg.velocities] at hb
      exact any_isSome_true (f := Site.velocities) hb
    · rename_i hb
      cases hvs
      refine ⟨Option.none, ?_, rfl⟩
      rw [hg.velocities, Bool.not_eq_true] at hb
      exact any_isSome_false hb
  have hp : ∃ preds, Gathered Site.predictors g.sites preds ∧
      ps = (match preds with | some v => predLines prec v | Option.none => []) := by
    split at hps
    · rename_i hb
      obtain ⟨ls, hls, h⟩ := Res.bind_eq_ok.1 hps
      cases h
      obtain ⟨preds, h1, h2⟩ := mapM'_predLine hls
      refine ⟨some preds, ⟨?_, h1⟩, by rw [h2]; rfl⟩
      rw [hg.predictors] at hb
      exact any_isSome_true (f := Site.predictors) hb
    · rename_i hb
      cases hps
      refine ⟨Option.none, ?_, rfl⟩
      rw [hg.predictors, Bool.not_eq_true] at hb
      exact any_isSome_false hb
  obtain ⟨vels, hv1, hv2⟩ := hv
  obtain ⟨preds, hp1, hp2⟩ := hp
  refine ⟨vels, preds, hv1, hp1, ?_⟩
  rw [withNewlines_eq]
  congr 1
  rw [hv2, hp2]
  unfold fileLines headLines modeLines coordLine speciesLine countLine
  simp only [List.append_assoc]

/-! ### reading it -/

/-- The comment as read back. -/
def readBack (line : Str) : Str := strip (line.filter (· != '#'))

theorem makeCell_round (prec : Nat) (c : Cell) :
    makeCell 1 [(roundV prec c.a).x, (roundV prec c.a).y, (roundV prec c.a).z] [(roundV prec c.b).x, (roundV prec c.b).y, (roundV prec c.b).z]
      [(roundV prec c.c).x, (roundV prec c.c).y, (roundV prec c.c).z] = .ok (some (roundM prec c)) := by
  simp [makeCell, roundM, M3.scale, M3.map, V3.map]

theorem readRow_vecLine (prec : Nat) (v : Vec) :
    readRow (vecLine prec v ++ ['\n']) = .ok [(roundV prec v).x, (roundV prec v).y, (roundV prec v).z] := by
  unfold readRow
  rw [Incar.words_newline, vecLine_eq, Kpoints.words_floatLine, Kpoints.mapM'_toFloat]; rfl

theorem readHeader_written (prec : Nat) (direct : Bool) (comment : Val) (c : Cell) (g : Grouped) (tail : List Str)
    (hnames : ∀ k ∈ g.species, Token (capitalize k) ∧ pyFloat (capitalize k) = none) :
    readHeader ((headLines prec comment c g ++ modeLines direct g).map (· ++ ['\n']) ++ tail) =
      .ok ⟨readBack (headline (compound g.species g.nums) comment), 1, some (roundM prec c), g.species.map capitalize,
        g.nums.map (fun n : Nat => (n : Int)), g.selective, direct, (headLines prec comment c g ++ modeLines direct g).length⟩ := by
  have hw : words (fmtFixed (prec + 4) prec 1 ++ ['\n']) = [fmtFixedRaw prec 1] := by rw [Incar.words_newline, words_fmtFixed]
  have h1 : toFloat (fmtFixedRaw prec 1) = .ok 1 := by rw [Kpoints.toFloat_fmt, roundDec_one]
  have hs := speciesLine_not_numbers g.species hnames
  have hws : words (speciesLine g.species ++ ['\n']) = g.species.map capitalize := by
    rw [Incar.words_newline, words_speciesLine _ (fun k hk => (hnames k hk).1)]
  have hwc : Res.mapM' toInt (words (countLine g.nums ++ ['\n'])) = .ok (g.nums.map fun n : Nat => (n : Int)) := by
    rw [Incar.words_newline, words_countLine]
    have := Kpoints.mapM'_toInt (g.nums.map fun n : Nat => (n : Int))
    rw [List.map_map] at this
    exact this
  have hc : strip ((headline (compound g.species g.nums) comment ++ ['\n']).filter (· != '#')) =
      readBack (headline (compound g.species g.nums) comment) := by
    rw [List.filter_append]
    exact Eol.strip (.inr rfl) _
  unfold readHeader headLines modeLines
  cases hsel : g.selective with
  | true =>
    simp only [if_true, List.cons_append, List.nil_append, List.map_cons, idx, List.getElem?_cons_succ, List.getElem?_cons_zero,
      Res.ok_bind, hw, h1, hs, readRow_vecLine, makeCell_round, hws, hwc, hc, List.length_cons]
    cases direct <;> simp [coordLine, lowerC]
  | false =>
    simp only [Bool.false_eq_true, if_false, List.cons_append, List.nil_append, List.map_cons, idx, List.getElem?_cons_succ, List.getElem?_cons_zero,
      Res.ok_bind, hw, h1, hs, readRow_vecLine, makeCell_round, hws, hwc, hc, List.length_cons]
    cases direct <;> simp [coordLine, lowerC]

theorem readSites_total (h : Header) (lines : List Str) (n i slot : Nat) (index : Int) (a : Int) (pos : List Int) (spec : List Str)
    (hd : h.atoms.drop slot = a :: pos) (hs : h.spec.drop slot = spec) (hl : spec.length = pos.length + 1) (hpos : ∀ b ∈ pos, 0 < b)
    (h1 : 1 ≤ index) (h2 : index ≤ a + 1) (hn : (n : Int) = a - index + 1 + pos.sum)
    (hlines : ∀ k < n, ∃ line v f, lines[i + k + h.loopmax]? = some line ∧ readPos h line = .ok v ∧ readFlags line h.selective = .ok f) :
    ∃ raws, readSites h lines n i slot index = .ok raws := by
  induction n generalizing i slot index a pos spec with
  | zero => exact ⟨[], rfl⟩
  | succ n ih =>
    have ha : idx h.atoms slot = .ok a := by
      have h3 : (h.atoms.drop slot)[0]? = some a := by rw [hd]; rfl
      rw [List.getElem?_drop] at h3
      exact idx_ok.2 (by simpa using h3)
    obtain ⟨line, v, f, hline, hv, hf⟩ := hlines 0 (by omega)
    rw [Nat.add_zero] at hline
    have hrest : ∀ k < n, ∃ line v f, lines[i + 1 + k + h.loopmax]? = some line ∧ readPos h line = .ok v ∧
        readFlags line h.selective = .ok f := by
      intro k hk
      have := hlines (k + 1) (by omega)
      rwa [show i + (k + 1) + h.loopmax = i + 1 + k + h.loopmax by omega] at this
    unfold readSites
    rw [ha, Res.ok_bind]
    dsimp only
    by_cases hgt : index > a
    · simp only [if_pos hgt]
      cases pos with
      | nil => simp at hn; omega
      | cons b bs =>
        have hb := hpos b (by simp)
        have hd' : h.atoms.drop (slot + 1) = b :: bs := by rw [← List.tail_drop, hd]; rfl
        cases spec with
        | nil => simp at hl
        | cons s ss =>
          have hs' : h.spec.drop (slot + 1) = ss := by rw [← List.tail_drop, hs]; rfl
          cases ss with
          | nil => simp at hl
          | cons t ts =>
            obtain ⟨raws, hr⟩ := ih (i + 1) (slot + 1) (1 + 1) b bs (t :: ts) hd' hs' (by simpa using hl)
              (fun c hc => hpos c (by simp [hc])) (by omega) (by omega) (by simp only [List.sum_cons] at hn; omega) hrest
            have ht : idx h.spec (slot + 1) = .ok t := by
              have h3 : (h.spec.drop (slot + 1))[0]? = some t := by rw [hs']; rfl
              rw [List.getElem?_drop] at h3
              exact idx_ok.2 (by simpa using h3)
            rw [ht, Res.ok_bind, idx_ok.2 hline, Res.ok_bind, hv, Res.ok_bind, hf, Res.ok_bind, hr, Res.ok_bind]
            exact ⟨_, rfl⟩
    · simp only [if_neg hgt]
      obtain ⟨raws, hr⟩ := ih (i + 1) slot (index + 1) a pos spec hd hs hl hpos (by omega) (by omega) (by omega) hrest
      cases spec with
      | nil => simp at hl
      | cons s ss =>
        have ht : idx h.spec slot = .ok s := by
          have h3 : (h.spec.drop slot)[0]? = some s := by rw [hs]; rfl
          rw [List.getElem?_drop] at h3
          exact idx_ok.2 (by simpa using h3)
        rw [ht, Res.ok_bind, idx_ok.2 hline, Res.ok_bind, hv, Res.ok_bind, hf, Res.ok_bind, hr, Res.ok_bind]
        exact ⟨_, rfl⟩

/-- The vector the reader makes of a printed one. -/
def backV (prec : Nat) (direct : Bool) (c : Cell) (v : Vec) : Vec :=
  if direct then roundV prec v else (cartToDir (roundV prec (dirToCart v c)) (roundM prec c)).getD v

/-- For cartesian output the rounded cell has to be invertible. -/
def CellOk (prec : Nat) (direct : Bool) (c : Cell) : Prop := direct = false → (roundM prec c).toMatrix.det ≠ 0

theorem sameVec_backV {prec : Nat} {direct : Bool} {c : Cell} (hc : CellOk prec direct c) (v : Vec) :
    SameVec prec direct c v (backV prec direct c v) := by
  unfold SameVec backV
  cases direct with
  | true => simp
  | false =>
    obtain ⟨w, h1, h2, _⟩ := ((C16_inverse (roundM prec c)).1 (hc rfl) (roundV prec (dirToCart v c))).2
    simp [h1, h2]

/-- Reading a printed vector: kept in direct mode, converted in cartesian mode. -/
theorem conv_backV {prec : Nat} {direct : Bool} {c : Cell} (hc : CellOk prec direct c) (v : Vec) :
    (if direct then .ok (roundV prec (if direct then v else dirToCart v c))
      else toDirect (roundV prec (if direct then v else dirToCart v c)) (some (roundM prec c))) = Res.ok (backV prec direct c v) := by
  unfold backV
  cases direct with
  | true => rfl
  | false =>
    obtain ⟨w, h1, h2, _⟩ := ((C16_inverse (roundM prec c)).1 (hc rfl) (roundV prec (dirToCart v c))).2
    simp [toDirect, h1]

theorem readVecs_block (A C : List Str) (vs : List Vec) (show' : Vec → Vec) (prec : Nat) (conv : Vec → Res Vec) (back : Vec → Vec)
    (h : ∀ v ∈ vs, conv (roundV prec (show' v)) = .ok (back v)) :
    readVecs (A ++ (vs.map (fun v => vecLine prec (show' v) ++ ['\n']) ++ C)) A.length vs.length conv = .ok (vs.map back) := by
  unfold readVecs
  have hlen : (vs.map (fun v => vecLine prec (show' v) ++ ['\n'])).length = vs.length := by simp
  rw [← hlen, Kpoints.mapM'_range_idx (fun l => readVec l >>= conv), Incar.mapM'_map]
  apply Res.mapM'_ok_of_forall
  intro v hv
  simp only [readVec_vecLine, Res.ok_bind]
  exact h v hv

theorem readPos_posLine {prec : Nat} {direct : Bool} {c : Cell} (hc : CellOk prec direct c) (h : Header) (hdir : h.direct = direct)
    (hs : h.scaling = 1) (hcell : h.cell = some (roundM prec c)) (sel : Bool) (s : Site) :
    readPos h (posLine prec direct c sel s ++ ['\n']) = .ok (backV prec direct c s.position) := by
  unfold readPos
  rw [readVec_posLine, Res.ok_bind, hdir, hs, hcell]
  have := conv_backV hc s.position
  rw [← this]
  cases direct with
  | true => rfl
  | false => simp [V3.map]

theorem isNumber_fmt (prec : Nat) (x : Rat) : isNumber (fmtFixedRaw prec x) = true := by
  unfold isNumber
  have := pyFloatRat_fmtFixedRaw prec x
  unfold pyFloatRat at this
  split at this
  · rename_i h; rw [h]; rfl
  · cases this

theorem words_first_vecLine (prec : Nat) (v : Vec) : idx (words (vecLine prec v ++ ['\n'])) 0 = .ok (fmtFixedRaw prec v.x) := by
  rw [Incar.words_newline, words_vecLine]; rfl

theorem idx_append_at {α} (B rest : List α) (k : Nat) : idx (B ++ rest) (B.length + k) = idx rest k := by
  rw [Nat.add_comm]; exact Kpoints.idx_append_right B rest k

theorem readTail_nil (B : List Str) : readTail (B ++ []) B.length = .ok (false, false, false) := by
  unfold readTail
  simp

theorem readTail_vel (B : List Str) (direct : Bool) (prec : Nat) (v : Vec) (more : List Str) :
    readTail (B ++ (coordLine direct ++ ['\n']) :: (vecLine prec v ++ ['\n']) :: more) B.length = .ok (true, !direct, false) := by
  unfold readTail
  rw [if_pos (by simp)]
  simp only [if_pos (show B.length + 1 < (B ++ (coordLine direct ++ ['\n']) :: (vecLine prec v ++ ['\n']) :: more).length by simp)]
  have h0 := idx_append_at B ((coordLine direct ++ ['\n']) :: (vecLine prec v ++ ['\n']) :: more) 0
  have h1 := idx_append_at B ((coordLine direct ++ ['\n']) :: (vecLine prec v ++ ['\n']) :: more) 1
  rw [Nat.add_zero] at h0
  rw [h0, h1]
  have e0 : idx ((coordLine direct ++ ['\n']) :: (vecLine prec v ++ ['\n']) :: more) 0 = .ok (coordLine direct ++ ['\n']) := rfl
  have e1 : idx ((coordLine direct ++ ['\n']) :: (vecLine prec v ++ ['\n']) :: more) 1 = .ok (vecLine prec v ++ ['\n']) := rfl
  rw [e0, e1]
  simp only [Res.ok_bind, words_first_vecLine, isNumber_fmt, if_true]
  cases direct <;> rfl

theorem readTail_pred (B : List Str) (prec : Nat) (v : Vec) (more : List Str) :
    readTail (B ++ ['\n'] :: (vecLine prec v ++ ['\n']) :: more) B.length = .ok (false, false, true) := by
  unfold readTail
  rw [if_pos (by simp)]
  simp only [if_pos (show B.length + 1 < (B ++ ['\n'] :: (vecLine prec v ++ ['\n']) :: more).length by simp)]
  have h0 := idx_append_at B (['\n'] :: (vecLine prec v ++ ['\n']) :: more) 0
  have h1 := idx_append_at B (['\n'] :: (vecLine prec v ++ ['\n']) :: more) 1
  rw [Nat.add_zero] at h0
  rw [h0, h1]
  have e0 : idx (['\n'] :: (vecLine prec v ++ ['\n']) :: more) 0 = .ok ['\n'] := rfl
  have e1 : idx (['\n'] :: (vecLine prec v ++ ['\n']) :: more) 1 = .ok (vecLine prec v ++ ['\n']) := rfl
  rw [e0, e1]
  simp only [Res.ok_bind, words_first_vecLine, isNumber_fmt, if_true]
  rfl

theorem readPredAfter_nil (B : List Str) (n : Nat) : readPredAfter (B ++ []) B.length n = .ok Option.none := by
  unfold readPredAfter
  simp

theorem readPredAfter_some (B : List Str) (prec : Nat) (ps : List Vec) (hne : ps ≠ []) :
    readPredAfter (B ++ (predLines prec ps).map (· ++ ['\n'])) B.length ps.length = .ok (some (ps.map (roundV prec))) := by
  cases ps with
  | nil => exact absurd rfl hne
  | cons v more =>
    unfold readPredAfter predLines
    simp only [List.map_cons, List.nil_append]
    rw [if_pos (by simp)]
    have h0 := idx_append_at B (['\n'] :: (vecLine prec v ++ ['\n']) :: (more.map (vecLine prec)).map (· ++ ['\n'])) 0
    have h1 := idx_append_at B (['\n'] :: (vecLine prec v ++ ['\n']) :: (more.map (vecLine prec)).map (· ++ ['\n'])) 1
    rw [Nat.add_zero] at h0
    rw [h0, h1]
    have e0 : idx (['\n'] :: (vecLine prec v ++ ['\n']) :: (more.map (vecLine prec)).map (· ++ ['\n'])) 0 = .ok ['\n'] := rfl
    have e1 : idx (['\n'] :: (vecLine prec v ++ ['\n']) :: (more.map (vecLine prec)).map (· ++ ['\n'])) 1 =
      .ok (vecLine prec v ++ ['\n']) := rfl
    rw [e0, e1, Res.ok_bind, if_pos (by decide), Res.ok_bind, words_first_vecLine, Res.ok_bind, isNumber_fmt, if_pos rfl]
    have hb := readVecs_block (B ++ [['\n']]) [] (v :: more) id prec .ok (roundV prec) (fun w _ => rfl)
    have hl : (B ++ [['\n']]).length = B.length + 1 := by simp
    rw [hl] at hb
    simp only [List.map_cons, List.append_assoc, List.singleton_append, List.append_nil, id] at hb
    rw [List.map_map]
    have hf : ((fun x => x ++ ['\n']) ∘ vecLine prec) = fun v => vecLine prec v ++ ['\n'] := rfl
    rw [hf]
    rw [hb]
    rfl

theorem capitalize_getSpecie (s : Site) : capitalize s.getSpecie = s.getSpecie := capitalize_idem _

theorem species_capitalized {g : Grouped} (hg : WellGrouped g) : g.species.map capitalize = g.species := by
  conv => rhs; rw [← List.map_id g.species]
  apply List.map_congr_left
  intro k hk
  obtain ⟨s, _, rfl⟩ := species_mem hg hk
  exact capitalize_getSpecie s

theorem sum_cast (l : List Nat) : (l.map fun n : Nat => (n : Int)).sum = (l.sum : Int) := by
  induction l with
  | nil => rfl
  | cons a as ih => rw [List.map_cons, List.sum_cons, List.sum_cons, ih]; push_cast; rfl

theorem toNat_cast (l : List Nat) : (l.map fun n : Nat => (n : Int)).map Int.toNat = l := by
  induction l with
  | nil => rfl
  | cons a as ih => rw [List.map_cons, List.map_cons, ih]; rfl

/-- The raw data read for the written sites. -/
theorem readSites_written {prec : Nat} {direct : Bool} {c : Cell} (hc : CellOk prec direct c) {g : Grouped} (hg : WellGrouped g)
    (h : Header) (hdir : h.direct = direct) (hs : h.scaling = 1) (hcell : h.cell = some (roundM prec c)) (hsp : h.spec = g.species)
    (hat : h.atoms = g.nums.map fun n : Nat => (n : Int)) (hsel : h.selective = g.selective) (A C : List Str) (hA : A.length = h.loopmax) :
    readSites h (A ++ (g.sites.map (fun s => posLine prec direct c g.selective s ++ ['\n']) ++ C)) g.sites.length 0 0 1 =
      .ok (g.sites.map fun s => ⟨s.getSpecie, backV prec direct c s.position, s.selective⟩) := by
  have hline : ∀ k s, g.sites[k]? = some s →
      (A ++ (g.sites.map (fun s => posLine prec direct c g.selective s ++ ['\n']) ++ C))[0 + k + h.loopmax]? =
        some (posLine prec direct c g.selective s ++ ['\n']) := by
    intro k s hk
    have hlt : k < g.sites.length := by
      rcases Nat.lt_or_ge k g.sites.length with h' | h'
      · exact h'
      · rw [List.getElem?_eq_none h'] at hk; cases hk
    rw [List.getElem?_append_right (by omega), List.getElem?_append_left (by simp; omega), List.getElem?_map]
    rw [show 0 + k + h.loopmax - A.length = k by omega, hk]
    rfl
  have hflags : ∀ s ∈ g.sites, g.selective = false → s.frozen = false := by
    intro s hs' hf
    rw [hg.selective, List.any_eq_false] at hf
    simpa using hf s hs'
  have hread : ∀ k < g.sites.length, ∃ line v f,
      (A ++ (g.sites.map (fun s => posLine prec direct c g.selective s ++ ['\n']) ++ C))[0 + k + h.loopmax]? = some line ∧
      readPos h line = .ok v ∧ readFlags line h.selective = .ok f := by
    intro k hk
    have hks := List.getElem?_eq_getElem hk
    refine ⟨_, _, (g.sites[k]).selective, hline k _ hks, readPos_posLine hc h hdir hs hcell g.selective _, ?_⟩
    · rw [hsel]; exact readFlags_posLine _ _ _ _ _ (hflags _ (List.getElem_mem hk))
  have hex := length_expand hg.lengths
  rw [hg.expand, List.length_map] at hex
  have hlen := hg.lengths
  have hposi := hg.positive
  have hexp := hg.expand
  have hall : ∃ raws, readSites h (A ++ (g.sites.map (fun s => posLine prec direct c g.selective s ++ ['\n']) ++ C)) g.sites.length 0 0 1 =
      .ok raws ∧ raws.map Raw.specie = g.sites.map Site.getSpecie := by
    cases hn : g.nums with
    | nil =>
      rw [hn] at hex
      have h0 : g.sites = [] := List.length_eq_zero_iff.1 (by simpa using hex)
      rw [h0]
      exact ⟨[], rfl, rfl⟩
    | cons a as =>
      have hat' : h.atoms.drop 0 = (a : Int) :: as.map (fun n : Nat => (n : Int)) := by rw [hat, hn]; rfl
      have hpos' : ∀ b ∈ as.map (fun n : Nat => (n : Int)), 0 < b := by
        intro b hb
        obtain ⟨n, hn', rfl⟩ := List.mem_map.1 hb
        have := hposi n (by rw [hn]; simp [hn'])
        omega
      have hsum : (g.sites.length : Int) = (a : Int) - 1 + 1 + (as.map fun n : Nat => (n : Int)).sum := by
        rw [hex, hn, List.sum_cons, sum_cast]; push_cast; omega
      obtain ⟨raws, hr⟩ := readSites_total h _ g.sites.length 0 0 1 a (as.map fun n : Nat => (n : Int)) g.species hat'
        (by rw [hsp]; rfl) (by rw [← hlen, hn]; simp) hpos' (by omega) (by omega) hsum hread
      refine ⟨raws, hr, ?_⟩
      have := readSites_species h _ _ 0 0 1 raws hr a (as.map fun n : Nat => (n : Int)) 0 (by rw [hat']; simp) hpos' (by omega) (by omega) hsum
      rw [this, ← hexp, hsp, hn, List.drop_zero]
      congr 1
      have : ((a : Int) - 1 + 1).toNat = a := by omega
      rw [this, List.replicate_zero, List.append_nil, toNat_cast]
  obtain ⟨raws, hr, hspec⟩ := hall
  rw [hr]
  congr 1
  apply List.ext_getElem?
  intro k
  have hlen' := readSites_length _ _ _ _ _ _ _ hr
  rcases Nat.lt_or_ge k g.sites.length with hk | hk
  · have hks := List.getElem?_eq_getElem hk
    have hkr := List.getElem?_eq_getElem (l := raws) (i := k) (by omega)
    obtain ⟨line, h1, h2, h3⟩ := readSites_lines _ _ _ _ _ _ _ hr k _ hkr
    rw [hline k _ hks] at h1
    cases h1
    rw [readPos_posLine hc h hdir hs hcell] at h2
    rw [hsel, readFlags_posLine _ _ _ _ _ (hflags _ (List.getElem_mem hk))] at h3
    have h4 : (raws.map Raw.specie)[k]? = (g.sites.map Site.getSpecie)[k]? := by rw [hspec]
    rw [List.getElem?_map, List.getElem?_map, hkr, hks] at h4
    rw [hkr, List.getElem?_map, hks]
    simp only [Option.map_some, Option.some.injEq, Res.ok.injEq] at h2 h3 h4 ⊢
    cases hraw : raws[k] with
    | mk sp po fl =>
      rw [hraw] at h2 h3 h4
      simp only at h2 h3 h4
      rw [h2, h3, h4]
  · rw [List.getElem?_eq_none (by omega), List.getElem?_eq_none (by simp; omega)]

/-- The sites read back. -/
def backSites (prec : Nat) (direct : Bool) (c : Cell) (sites : List Site) : List Site :=
  sites.map fun s => Site.new s.getSpecie (backV prec direct c s.position) s.selective (s.velocities.map (backV prec direct c))
    (s.predictors.map (roundV prec)) true

theorem gathered_length {f : Site → Option Vec} {sites : List Site} {vs : List Vec} (h : Gathered f sites (some vs)) :
    vs.length = sites.length := by
  have := congrArg List.length h.2
  simpa using this.symm

theorem gathered_get {f : Site → Option Vec} {sites : List Site} {o : Option (List Vec)} (h : Gathered f sites o) (g : Vec → Vec) (k : Nat)
    (s : Site) (hs : sites[k]? = some s) : ((o.map (List.map g)).bind fun l => l[k]?) = (f s).map g := by
  cases o with
  | none => rw [h s (List.mem_of_getElem? hs)]; rfl
  | some vs =>
    have h1 : (sites.map f)[k]? = (vs.map some)[k]? := by rw [h.2]
    rw [List.getElem?_map, List.getElem?_map, hs] at h1
    simp only [Option.map_some, Option.bind_some, List.getElem?_map]
    cases hv : vs[k]? with
    | none => rw [hv] at h1; simp at h1
    | some v => rw [hv] at h1; simp at h1; rw [h1]

theorem assemble_back {prec : Nat} {direct : Bool} {c : Cell} {sites : List Site} {vels preds : Option (List Vec)}
    (hv : Gathered Site.velocities sites vels) (hp : Gathered Site.predictors sites preds) :
    assemble (sites.map fun s => ⟨s.getSpecie, backV prec direct c s.position, s.selective⟩)
      (vels.map (List.map (backV prec direct c))) (preds.map (List.map (roundV prec))) = backSites prec direct c sites := by
  unfold assemble backSites
  apply List.ext_getElem?
  intro k
  rw [List.getElem?_map, List.getElem?_zipIdx, List.getElem?_map, List.getElem?_map]
  cases hk : sites[k]? with
  | none => rfl
  | some s =>
    simp only [Option.map_some, Nat.zero_add]
    rw [gathered_get hv _ k s hk, gathered_get hp _ k s hk]

theorem parse_written {prec : Nat} {direct : Bool} {comment : Val} {c : Cell} (hc : CellOk prec direct c) {g : Grouped}
    (hg : WellGrouped g) (hnames : ∀ s ∈ g.sites, Token s.getSpecie ∧ pyFloat s.getSpecie = none) {vels preds : Option (List Vec)}
    (hv : Gathered Site.velocities g.sites vels) (hp : Gathered Site.predictors g.sites preds) :
    parse ((fileLines prec direct comment c g vels preds).map (· ++ ['\n'])) =
      .ok ⟨readBack (headline (compound g.species g.nums) comment), some (roundM prec c), backSites prec direct c g.sites⟩ := by
  have hspc : ∀ k ∈ g.species, Token (capitalize k) ∧ pyFloat (capitalize k) = none := by
    intro k hk
    obtain ⟨s, hs, rfl⟩ := species_mem hg hk
    rw [capitalize_getSpecie]
    exact hnames s hs
  have hex := length_expand hg.lengths
  rw [hg.expand, List.length_map] at hex
  have hsum : ((g.nums.map fun n : Nat => (n : Int)).sum).toNat = g.sites.length := by rw [sum_cast, hex]; rfl
  have hnn : ¬ (g.nums.map fun n : Nat => (n : Int)).sum < 0 := by rw [sum_cast]; omega
  have hlines : (fileLines prec direct comment c g vels preds).map (· ++ ['\n']) =
      (headLines prec comment c g ++ modeLines direct g).map (· ++ ['\n']) ++
        (g.sites.map (fun s => posLine prec direct c g.selective s ++ ['\n']) ++
          ((match vels with | some v => velLines prec direct c v | Option.none => []) ++
            (match preds with | some v => predLines prec v | Option.none => [])).map (· ++ ['\n'])) := by
    unfold fileLines
    simp only [List.map_append, List.append_assoc, List.map_map]
    rfl
  rw [hlines]
  unfold parse
  rw [readHeader_written _ _ _ _ _ _ hspc, Res.ok_bind]
  dsimp only
  rw [if_neg hnn, hsum, species_capitalized hg]
  generalize hA : (headLines prec comment c g ++ modeLines direct g) = hm
  rw [readSites_written hc hg ⟨readBack (headline (compound g.species g.nums) comment), 1, some (roundM prec c), g.species,
        g.nums.map (fun n : Nat => (n : Int)), g.selective, direct, hm.length⟩ rfl rfl rfl rfl rfl rfl
      (hm.map (· ++ ['\n'])) _ (by simp), Res.ok_bind]
  have hB : (hm.map (· ++ ['\n']) ++ g.sites.map (fun s => posLine prec direct c g.selective s ++ ['\n'])).length =
      g.sites.length + hm.length := by simp; omega
  rw [← List.append_assoc]
  generalize (hm.map (· ++ ['\n']) ++ g.sites.map (fun s => posLine prec direct c g.selective s ++ ['\n'])) = B at hB ⊢
  rw [← assemble_back hv hp, ← hB]
  have hlv : ∀ vs, vels = some vs → vs.length = g.sites.length := fun vs h => by subst h; exact gathered_length hv
  have hlp : ∀ vs, preds = some vs → vs.length = g.sites.length := fun vs h => by subst h; exact gathered_length hp
  cases vels with
  | none =>
    cases preds with
    | none =>
      simp only [List.nil_append, List.map_nil]
      rw [readTail_nil]
      rfl
    | some ps =>
      have hne : ps ≠ [] := by
        rintro rfl
        have := hlp [] rfl
        exact hp.1 (List.length_eq_zero_iff.1 (by simpa using this.symm))
      obtain ⟨p0, prest, rfl⟩ := List.exists_cons_of_ne_nil hne
      simp only [List.nil_append, predLines, List.map_cons]
      rw [readTail_pred]
      simp only [Res.ok_bind, Bool.false_eq_true, if_false, if_true]
      have hb := readVecs_block (B ++ [['\n']]) [] (p0 :: prest) id prec .ok (roundV prec) (fun w _ => rfl)
      have hl : (B ++ [['\n']]).length = B.length + 1 := by simp
      rw [hl, hlp _ rfl] at hb
      simp only [List.map_cons, List.append_assoc, List.singleton_append, List.append_nil, id] at hb
      rw [List.map_map]
      have hf : ((fun x => x ++ ['\n']) ∘ vecLine prec) = fun v => vecLine prec v ++ ['\n'] := rfl
      rw [hf, hb]
      rfl
  | some vs =>
    have hne : vs ≠ [] := by
      rintro rfl
      have := hlv [] rfl
      exact hv.1 (List.length_eq_zero_iff.1 (by simpa using this.symm))
    have hconv : ∀ v ∈ vs, (fun v : Vec => if (direct && !(!direct)) = true then Res.ok v else toDirect v (some (roundM prec c)))
        (roundV prec ((fun v => if direct = true then v else dirToCart v c) v)) = .ok (backV prec direct c v) := by
      intro v _
      rw [← conv_backV hc v]
      cases direct <;> rfl
    have hb := fun C => readVecs_block (B ++ [coordLine direct ++ ['\n']]) C vs (fun v => if direct = true then v else dirToCart v c) prec
      (fun v : Vec => if (direct && !(!direct)) = true then Res.ok v else toDirect v (some (roundM prec c))) (backV prec direct c) hconv
    have hl : (B ++ [coordLine direct ++ ['\n']]).length = B.length + 1 := by simp
    simp only [hl, hlv _ rfl] at hb
    have hvl : (velLines prec direct c vs).map (· ++ ['\n']) =
        [coordLine direct ++ ['\n']] ++ vs.map (fun v => vecLine prec (if direct = true then v else dirToCart v c) ++ ['\n']) := by
      simp only [velLines, List.map_cons, List.map_map]
      rfl
    have htail : ∀ C, readTail (B ++ ((velLines prec direct c vs).map (· ++ ['\n']) ++ C)) B.length = .ok (true, !direct, false) := by
      intro C
      obtain ⟨v0, vrest, rfl⟩ := List.exists_cons_of_ne_nil hne
      simp only [velLines, List.map_cons, List.cons_append]
      exact readTail_vel _ _ _ _ _
    have hpred : ∀ C, readPredAfter (B ++ ((velLines prec direct c vs).map (· ++ ['\n']) ++ C)) (g.sites.length + (B.length + 1)) g.sites.length =
        readPredAfter ((B ++ (velLines prec direct c vs).map (· ++ ['\n'])) ++ C) (B ++ (velLines prec direct c vs).map (· ++ ['\n'])).length g.sites.length := by
      intro C
      have hlen : (B ++ (velLines prec direct c vs).map (· ++ ['\n'])).length = g.sites.length + (B.length + 1) := by
        rw [hvl]; simp [hlv vs rfl]; omega
      rw [hlen, List.append_assoc]
    have hvec : ∀ C, readVecs (B ++ ((velLines prec direct c vs).map (· ++ ['\n']) ++ C)) (B.length + 1) g.sites.length
        (fun v => if (direct && !(!direct)) = true then Res.ok v else toDirect v (some (roundM prec c))) =
        .ok (vs.map (backV prec direct c)) := by
      intro C
      rw [← hb C, hvl]
      simp only [List.append_assoc]
    rw [List.map_append, htail, Res.ok_bind]
    simp only [if_true]
    rw [hvec, Res.ok_bind, hpred]
    cases preds with
    | none =>
      simp only [List.map_nil]
      rw [readPredAfter_nil]
      rfl
    | some ps =>
      have hne : ps ≠ [] := by
        rintro rfl
        have := hlp [] rfl
        exact hp.1 (List.length_eq_zero_iff.1 (by simpa using this.symm))
      simp only
      rw [← hlp ps rfl, readPredAfter_some _ _ _ hne]
      rfl

/-! ### C15 -/

/-- `Poscar` gives the object `e` for the text, supplied as a file, a handler or a string. -/
structure ReadsAs (text : Str) (e : Entries) : Prop where
  file : init { path := some (some text) } = .ok e
  handler : init { handler := some text } = .ok e
  string : init { string := some text } = .ok e

theorem headline_noBreak {cm : Option Str} {species : List Str} {nums : List Nat} (hs : ∀ k ∈ species, Token (capitalize k))
    (hcm : ∀ s, cm = some s → Free isLineBreak s) :
    Free isLineBreak (headline (compound species nums) (commentVal cm)) := by
  have hcomp : Free isLineBreak (compound species nums) := by
    unfold compound
    simp only [Free.append_iff]
    refine ⟨⟨by unfold Free; decide, ?_⟩, by unfold Free; decide⟩
    refine free_flatMap ?_
    rintro ⟨k, n⟩ hk
    rw [Free.append_iff]
    refine ⟨Token.noBreak (hs k (List.of_mem_zip hk).1), ?_⟩
    split
    · intro c hc; simp at hc
    · have := intStr_numChars (n : Int)
      unfold intStr at this
      rw [if_neg (by omega)] at this
      exact Kpoints.NumChars.noBreak this
  have hhash : Free isLineBreak c!"# " := by unfold Free; decide
  have hold : Free isLineBreak c!" Old comment: " := by unfold Free; decide
  cases cm with
  | none => simp only [commentVal, headline, Free.append_iff]; exact ⟨hhash, hcomp⟩
  | some s =>
    simp only [commentVal, headline]
    split
    · rw [Free.append_iff]; exact ⟨hhash, hcm s rfl⟩
    · simp only [Free.append_iff]; exact ⟨⟨⟨hhash, hcomp⟩, hold⟩, hcm s rfl⟩

theorem fileLines_noBreak {prec : Nat} {direct : Bool} {cm : Option Str} {c : Cell} {g : Grouped} {vels preds : Option (List Vec)}
    (hs : ∀ k ∈ g.species, Token (capitalize k)) (hcm : ∀ s, cm = some s → Free isLineBreak s) :
    ∀ l ∈ fileLines prec direct (commentVal cm) c g vels preds, Free isLineBreak l := by
  have hco : Free isLineBreak (coordLine direct) := by unfold Free; cases direct <;> decide
  intro l hl
  unfold fileLines headLines modeLines at hl
  simp only [List.mem_append, List.mem_cons, List.not_mem_nil, or_false, List.mem_map] at hl
  rcases hl with (((hl | hl) | hl) | hl) | hl
  · rcases hl with rfl | rfl | rfl | rfl | rfl | rfl | rfl
    · exact headline_noBreak hs hcm
    · exact Kpoints.free_padLeft (by decide) _ (Kpoints.NumChars.noBreak (fmtFixedRaw_numChars prec 1))
    · exact vecLine_noBreak _ _
    · exact vecLine_noBreak _ _
    · exact vecLine_noBreak _ _
    · exact speciesLine_noBreak _ hs
    · exact countLine_noBreak _
  · rcases hl with hl | rfl
    · split at hl
      · simp only [List.mem_singleton] at hl; subst hl; unfold Free; decide
      · simp at hl
    · exact hco
  · obtain ⟨s, _, rfl⟩ := hl
    exact posLine_noBreak _ _ _ _ _
  · cases vels with
    | none => simp at hl
    | some vs =>
      simp only [velLines, List.mem_cons, List.mem_map] at hl
      rcases hl with rfl | ⟨v, _, rfl⟩
      · exact hco
      · exact vecLine_noBreak _ _
  · cases preds with
    | none => simp at hl
    | some vs =>
      simp only [predLines, List.mem_cons, List.mem_map] at hl
      rcases hl with rfl | ⟨v, _, rfl⟩
      · intro c hc; simp at hc
      · exact vecLine_noBreak _ _

theorem holds_toEntries (p : Parsed) (c : Cell) (hc : p.cell = some c) (hd : ∀ s ∈ p.sites, s.direct = true) :
    Holds p.toEntries (some p.comment) c p.sites := by
  refine ⟨rfl, ?_, rfl, hd⟩
  show some (Val.cell p.cell) = _
  rw [hc]

theorem fromDict_direct {e : Entries} {sites : List Site} (hs : Stores e sites) (hset : e.set c!"sites" (.sites (sites.map .site)) = e) :
    fromDict e = .ok e := by
  unfold fromDict lookup
  rw [hs.entry]
  simp only [Res.ok_bind]
  have : Res.mapM' (convertElem (cellOf e)) (sites.map .site) = .ok (sites.map .site) := by
    have hd := hs.direct
    clear hs hset
    induction sites with
    | nil => rfl
    | cons s ss ih =>
      simp only [List.map_cons, Res.mapM', convertElem, hd s (by simp), if_true, ih (fun t ht => hd t (by simp [ht]))]
  rw [this, Res.ok_bind, hset]

theorem validate_holds {e : Entries} {cm : Option Str} {c : Cell} {sites : List Site} (h : Holds e cm c sites) : validate e = .ok () := by
  have h1 := h.comment
  have h2 := h.cell
  have h3 := h.stored
  unfold validate checkComment checkCell checkSites argOr lookup
  simp only [if_true, h1, h2, h3, Res.ok_bind]
  cases cm with
  | none => simp [commentVal]
  | some s => simp [commentVal]

theorem init_lines {ls : List Str} (hls : ∀ l ∈ ls, Free isLineBreak l) {p : Parsed} {c : Cell} (hc : p.cell = some c)
    (hd : ∀ s ∈ p.sites, s.direct = true) (hp : parse (ls.map (· ++ ['\n'])) = .ok p) : ReadsAs (unlines ls) p.toEntries := by
  have hr := (Kpoints.read_unlines ls hls).1
  have hs := splitlinesKeep_unlines ls hls
  have hfl : fromList (ls.map (· ++ ['\n'])) = .ok p.toEntries := by unfold fromList; rw [hp]; rfl
  have hh := holds_toEntries p c hc hd
  have hfd : fromDict p.toEntries = .ok p.toEntries := fromDict_direct hh.stores rfl
  have hv := validate_holds hh
  refine ⟨?_, ?_, ?_⟩
  · unfold init load fromFile
    simp only [guards, Option.isSome_none, Option.isSome_some, Bool.and_false, Bool.false_and, Bool.or_false, Bool.not_false, Bool.and_true, Bool.not_true]
    simp only [Bool.false_eq_true, if_false, Bool.true_or, Bool.or_true, if_true, hr, hfl, Res.ok_bind, hfd, hv]
  · unfold init load fromFile
    simp only [guards, Option.isSome_none, Option.isSome_some, Bool.and_false, Bool.false_and, Bool.or_false, Bool.not_false, Bool.and_true, Bool.not_true]
    simp only [Bool.false_eq_true, if_false, Bool.true_or, Bool.or_true, if_true, hr, hfl, Res.ok_bind, hfd, hv]
  · unfold init load
    simp only [guards, Option.isSome_none, Option.isSome_some, Bool.and_false, Bool.false_and, Bool.or_false, Bool.not_false, Bool.and_true, Bool.not_true]
    simp only [Bool.false_eq_true, if_false, hs, hfl, Res.ok_bind, hfd, hv]

theorem write_holds {e : Entries} {cm : Option Str} {c : Cell} {sites : List Site} (h : Holds e cm c sites) (prec : Nat) (conserve direct : Bool) :
    write prec conserve direct e =
      writeGrouped prec direct (commentVal cm) c (group conserve sites) := by
  unfold write
  rw [validate_holds h, Res.ok_bind]
  unfold lookup
  simp only [h.comment, h.cell, Res.ok_bind, sortAndGroup_stores h.stores conserve]

/-- The complete result of a write and a read (implementation form). -/
theorem write_read {e : Entries} {cm : Option Str} {c : Cell} {sites : List Site} (h : Holds e cm c sites) (hpr : Printable cm sites)
    {prec : Nat} {conserve direct : Bool} (hc : CellOk prec direct c) {text : Str} (hw : write prec conserve direct e = .ok text) :
    ReadsAs text (Parsed.toEntries ⟨readBack (headline (compound (group conserve sites).species (group conserve sites).nums)
      (commentVal cm)), some (roundM prec c), backSites prec direct c (group conserve sites).sites⟩) ∧
    ∃ ls, (∀ l ∈ ls, Free isLineBreak l) ∧ text = unlines ls ∧
      ls.head? = some (headline (compound (group conserve sites).species (group conserve sites).nums)
        (commentVal cm)) := by
  rw [write_holds h] at hw
  obtain ⟨hg, hperm⟩ := wellGrouped_group h.direct conserve
  obtain ⟨vels, preds, hv, hp, rfl⟩ := writeGrouped_ok hg hw
  have hnames : ∀ s ∈ (group conserve sites).sites, Token s.getSpecie ∧ pyFloat s.getSpecie = none :=
    fun s hs => hpr.names s (hperm.mem_iff.1 hs)
  have hparse := parse_written (comment := commentVal cm) hc hg hnames hv hp
  have hsp : ∀ k ∈ (group conserve sites).species, Token (capitalize k) := by
    intro k hk
    obtain ⟨s, hs, rfl⟩ := species_mem hg hk
    rw [capitalize_getSpecie]
    exact (hnames s hs).1
  refine ⟨init_lines (fileLines_noBreak hsp hpr.comment) rfl ?_ hparse, _, fileLines_noBreak hsp hpr.comment, rfl, rfl⟩
  intro s hs
  obtain ⟨t, _, rfl⟩ := List.mem_map.1 hs
  rfl

theorem sameSite_back {prec : Nat} {direct : Bool} {c : Cell} (hc : CellOk prec direct c) (s : Site) :
    SameSite prec direct c s (Site.new s.getSpecie (backV prec direct c s.position) s.selective (s.velocities.map (backV prec direct c))
      (s.predictors.map (roundV prec)) true) := by
  refine ⟨?_, rfl, sameVec_backV hc _, ?_, rfl, rfl⟩
  · show capitalize (lower s.getSpecie) = s.getSpecie
    rw [capitalize_capitalize_lower, capitalize_getSpecie]
  · show (match s.velocities, s.velocities.map (backV prec direct c) with
      | some v, some v' => SameVec prec direct c v v' | Option.none, Option.none => True | _, _ => False)
    cases s.velocities with
    | none => trivial
    | some v => exact sameVec_backV hc v

/-- C15: whatever text is written, reading it (as file, handler or string) gives an object with the rounded cell and, in the written
order, the same sites: same species, flags, presence of velocities and predictors, numbers rounded to `prec` decimals. -/
theorem C15_round_trip (prec : Nat) (conserve direct : Bool) (e : Entries) (cm : Option Str) (c : Cell) (sites : List Site) (text : Str)
    (h : Holds e cm c sites) (hpr : Printable cm sites) (hc : CellOk prec direct c) (hw : write prec conserve direct e = .ok text) :
    ∃ g e' cm' sites', sortAndGroup conserve e = .ok g ∧ ReadsAs text e' ∧ Holds e' (some cm') (roundM prec c) sites' ∧
      sites'.length = g.sites.length ∧
      ∀ (k : Nat) (s s' : Site), g.sites[k]? = some s → sites'[k]? = some s' → SameSite prec direct c s s' := by
  obtain ⟨hr, _⟩ := write_read h hpr hc hw
  refine ⟨_, _, _, _, sortAndGroup_stores h.stores conserve, hr, holds_toEntries _ _ rfl ?_, ?_, ?_⟩
  · intro s hs
    obtain ⟨t, _, rfl⟩ := List.mem_map.1 hs
    rfl
  · simp [backSites]
  · intro k s s' hs hs'
    unfold backSites at hs'
    rw [List.getElem?_map, hs] at hs'
    simp only [Option.map_some, Option.some.injEq] at hs'
    subst hs'
    exact sameSite_back hc s

/-- All or none. -/
def AllOrNone (f : Site → Option Vec) (sites : List Site) : Prop := (∀ s ∈ sites, f s ≠ Option.none) ∨ ∀ s ∈ sites, f s = Option.none

/-- A structure in which velocities (and likewise predictors) are given for all sites or for none can be written. -/
theorem C15_writes (prec : Nat) (conserve direct : Bool) (e : Entries) (cm : Option Str) (c : Cell) (sites : List Site)
    (h : Holds e cm c sites) (hv : AllOrNone Site.velocities sites) (hp : AllOrNone Site.predictors sites) :
    ∃ text, write prec conserve direct e = .ok text := by
  rw [write_holds h]
  obtain ⟨hg, hperm⟩ := wellGrouped_group h.direct conserve
  unfold writeGrouped
  dsimp only
  have h1 : ∃ vs, (if (group conserve sites).velocities then
      Res.mapM' (velLine prec direct c) (group conserve sites).sites >>= fun ls => .ok ((if direct then c!"Direct" else c!"Cartesian") :: ls)
      else .ok []) = Res.ok vs := by
    split
    · rename_i hb
      rw [hg.velocities, List.any_eq_true] at hb
      obtain ⟨s, hs, hs'⟩ := hb
      have hall : ∀ s ∈ sites, s.velocities ≠ Option.none := by
        rcases hv with hv | hv
        · exact hv
        · have := hv s (hperm.mem_iff.1 hs); rw [this] at hs'; cases hs'
      have := Res.mapM'_ok_of_forall (f := velLine prec direct c) (g := fun s => match s.velocities with
        | some v => vecLine prec (if direct then v else dirToCart v c) | Option.none => []) (group conserve sites).sites (by
          intro t ht
          have h2 := hall t (hperm.mem_iff.1 ht)
          unfold velLine
          cases hv' : t.velocities with
          | none => exact absurd hv' h2
          | some v => rfl)
      rw [this]
      exact ⟨_, rfl⟩
    · exact ⟨_, rfl⟩
  have h2 : ∃ vs, (if (group conserve sites).predictors then
      Res.mapM' (predLine prec) (group conserve sites).sites >>= fun ls => .ok ([] :: ls) else .ok []) = Res.ok vs := by
    split
    · rename_i hb
      rw [hg.predictors, List.any_eq_true] at hb
      obtain ⟨s, hs, hs'⟩ := hb
      have hall : ∀ s ∈ sites, s.predictors ≠ Option.none := by
        rcases hp with hp | hp
        · exact hp
        · have := hp s (hperm.mem_iff.1 hs); rw [this] at hs'; cases hs'
      have := Res.mapM'_ok_of_forall (f := predLine prec) (g := fun s => match s.predictors with
        | some v => vecLine prec v | Option.none => []) (group conserve sites).sites (by
          intro t ht
          have h2 := hall t (hperm.mem_iff.1 ht)
          unfold predLine
          cases hv' : t.predictors with
          | none => exact absurd hv' h2
          | some v => rfl)
      rw [this]
      exact ⟨_, rfl⟩
    · exact ⟨_, rfl⟩
  obtain ⟨vs, h1⟩ := h1
  obtain ⟨ps, h2⟩ := h2
  rw [h1, Res.ok_bind, h2, Res.ok_bind]
  exact ⟨_, rfl⟩

/-- A structure with velocities, predictors and frozen coordinates. -/
def fullSites : List Site :=
  [Site.new c!"O" ⟨1/3, 0, 2/7⟩ (true, false, true) (some ⟨1, 2, 3⟩) (some ⟨0, 0, 1/7⟩) true,
   Site.new c!"Fe" ⟨1/2, 1/2, 0⟩ (true, true, true) (some ⟨-1, 0, 0⟩) (some ⟨0, 1/9, 0⟩) true,
   Site.new c!"O" ⟨2/3, 0, 0⟩ (true, true, true) (some ⟨0, 0, 0⟩) (some ⟨1, 0, 0⟩) true]

/-- An object holding it. -/
def fullEntries : Entries :=
  [(c!"comment", .str c!"Rust"), (c!"unitcell", .cell (some ⟨⟨2, 0, 1/3⟩, ⟨0, 3, 0⟩, ⟨0, 1, 4⟩⟩)), (c!"sites", .sites (fullSites.map .site))]

example : Holds fullEntries (some c!"Rust") ⟨⟨2, 0, 1/3⟩, ⟨0, 3, 0⟩, ⟨0, 1, 4⟩⟩ fullSites ∧ Printable (some c!"Rust") fullSites ∧
    CellOk 3 false ⟨⟨2, 0, 1/3⟩, ⟨0, 3, 0⟩, ⟨0, 1, 4⟩⟩ := by
  refine ⟨⟨rfl, rfl, rfl, by decide +kernel⟩, ⟨?_, ?_⟩, ?_⟩
  · intro s hs; cases hs; unfold Free; decide
  · intro s hs
    unfold Token Free
    revert s; decide +kernel
  · intro _; rw [det_toMatrix]; decide +kernel

example : write 2 false false fullEntries = .ok (c!"# Compound: FeO2. Old comment: Rust\n  1.00\n  2.00   0.00   0.33\n  0.00   3.00   0.00\n  0.00   1.00   4.00\nFe    O\n    1     2\nSelective dynamics\nCartesian\n  1.00   1.50   0.17 T T T\n  0.67   0.29   1.25 T F T\n  1.33   0.00   0.22 T T T\nCartesian\n -2.00   0.00  -0.33\n  2.00   9.00  12.33\n  0.00   0.00   0.00\n\n  0.00   0.11   0.00\n  0.00   0.00   0.14\n  1.00   0.00   0.00\n") := by
  decide +kernel

end Verif.Poscar
