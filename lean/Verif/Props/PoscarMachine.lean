import Verif.Props.LatticeRound
import Verif.Props.StablePoscar
/-! # C112: POSCAR files with machine arithmetic -/
set_option autoImplicit false
namespace Verif.Poscar
open Verif Verif.Utils Verif.Lattice
open Verif.Kpoints (idx toInt)

/-! ### exact arithmetic is the model of the other modules -/

theorem bind_ok_id {α} (r : Res α) : (r >>= fun x => .ok x) = r := by cases r <;> rfl

theorem exact_toFloat : Arith.exact.toFloat = Kpoints.toFloat := by
  funext w
  exact bind_ok_id _

theorem exact_toDirect : Arith.exact.toDirect = toDirect := rfl

theorem exact_readVec : Arith.exact.readVec = readVec := by
  funext l
  unfold Arith.readVec readVec
  rw [exact_toFloat]

theorem exact_readPos : Arith.exact.readPos = readPos := by
  funext h l
  unfold Arith.readPos readPos
  rw [exact_readVec, exact_toDirect]
  congr 1
  funext v
  dsimp only
  by_cases hd : h.direct = true
  · rw [if_pos hd, if_pos hd, if_pos hd]
    simp [Arith.exact, V3.map]
  · rw [if_neg hd, if_neg hd, if_neg hd]
    rfl

theorem exact_readSites (h : Header) (lines : List Str) (n i slot : Nat) (index : Int) :
    Arith.exact.readSites h lines n i slot index = readSites h lines n i slot index := by
  induction n generalizing i slot index with
  | zero => rfl
  | succ n ih =>
    unfold Arith.readSites readSites
    simp only [exact_readPos, ih]

theorem exact_readHeader : Arith.exact.readHeader = readHeader := by
  funext lines
  have hr : Arith.exact.readRow = readRow := by
    funext l
    unfold Arith.readRow readRow
    rw [exact_toFloat]
  have hm : Arith.exact.makeCell = makeCell := by
    funext s a b c
    unfold Arith.makeCell
    split
    · rfl
    · rename_i h
      symm
      unfold makeCell
      split
      · exact (h _ _ _ _ _ _ _ _ _ rfl rfl rfl).elim
      · rfl
  unfold Arith.readHeader readHeader
  rw [exact_toFloat, hr, hm]

theorem exact_readVecs : Arith.exact.readVecs = readVecs := by
  funext lines p n conv
  unfold Arith.readVecs readVecs
  rw [exact_readVec]

/-- With exact arithmetic the reader is that of `Model/Poscar.lean`. -/
theorem exact_parse : Arith.exact.parse = parse := by
  funext lines
  have hp : Arith.exact.readPredAfter = readPredAfter := by
    funext lines p n
    unfold Arith.readPredAfter readPredAfter
    rw [exact_readVecs]
  unfold Arith.parse parse
  rw [exact_readHeader, hp, exact_readVecs, exact_toDirect]
  congr 1
  funext h
  dsimp only
  rw [exact_readSites]

/-- And so is the writer. -/
theorem exact_write (prec : Nat) (conserve direct : Bool) (e : Entries) : Arith.exact.write prec conserve direct e = write prec conserve direct e := rfl

/-- C112 speaks about the program of the other properties: with exact arithmetic reading a text is `init`. -/
theorem exact_read (text : Str) :
    Arith.exact.read false text = init { path := some (some text) } ∧ Arith.exact.read false text = init { handler := some text } ∧
    Arith.exact.read true text = init { string := some text } := by
  have hl : Arith.exact.fromList = fromList := by
    funext l
    unfold Arith.fromList fromList
    rw [exact_parse]
  refine ⟨?_, ?_, ?_⟩ <;> unfold Arith.read <;> rw [hl]
  · show (fromList (readlines text) >>= _) = load { path := some (some text) } >>= _
    unfold load fromFile
    simp only [Option.isSome_some, Bool.true_or, if_true]
    cases fromList (readlines text) <;> rfl
  · show (fromList (readlines text) >>= _) = load { handler := some text } >>= _
    unfold load fromFile
    simp only [Option.isSome_some, Bool.or_true, if_true]
    cases fromList (readlines text) <;> rfl
  · rfl

/-! ### reading a written text -/

/-- Reading is correctly rounded, and multiplying with 1.0 changes nothing. -/
structure OneOk (A : Arith) (N : Floats) : Prop where
  num : A.num = N.near
  one : N.mem 1
  mul_one : ∀ x, N.mem x → A.mul x 1 = x
  one_mul : ∀ x, N.mem x → A.mul 1 x = x

theorem near_of_mem {N : Floats} {x : Rat} (h : N.mem x) : N.near x = x := by
  have := N.near_best x x (N.bound x h) h
  rw [sub_self, abs_zero] at this
  have h0 := abs_nonpos_iff.1 this
  linarith

variable {A : Arith} {N : Floats}

theorem bind_ok_eq {α β} {r : Res α} {a : α} (h : r = .ok a) (f : α → Res β) : (r >>= f) = f a := by rw [h]; rfl

theorem machine_readVec (hA : OneOk A N) {line : Str} {v : Vec} (h : readVec line = .ok v) : A.readVec line = .ok (floatV N v) := by
  unfold readVec at h
  dsimp only at h
  obtain ⟨a, ha, h⟩ := Res.bind_eq_ok.1 h
  obtain ⟨x, hx, h⟩ := Res.bind_eq_ok.1 h
  obtain ⟨b, hb, h⟩ := Res.bind_eq_ok.1 h
  obtain ⟨y, hy, h⟩ := Res.bind_eq_ok.1 h
  obtain ⟨c, hc, h⟩ := Res.bind_eq_ok.1 h
  obtain ⟨z, hz, h⟩ := Res.bind_eq_ok.1 h
  cases h
  unfold Arith.readVec Arith.toFloat
  dsimp only
  simp only [ha, hx, hb, hy, hc, hz, Res.ok_bind, hA.num]
  rfl

theorem machine_readVecs (hA : OneOk A N) {lines : List Str} {p n : Nat} {vs : List Vec} (h : readVecs lines p n .ok = .ok vs) {conv : Vec → Res Vec}
    {f : Vec → Vec} (hc : ∀ v ∈ vs, conv (floatV N v) = .ok (f v)) : A.readVecs lines p n conv = .ok (vs.map f) := by
  unfold readVecs at h
  unfold Arith.readVecs
  generalize List.range n = l at h
  induction l generalizing vs with
  | nil => cases h; rfl
  | cons i l ih =>
    rw [Res.mapM'_eq_ok] at h
    cases h with
    | @cons _ v _ vs' h1 h2 =>
      obtain ⟨line, hl, h1⟩ := Res.bind_eq_ok.1 h1
      rw [bind_ok_id] at h1
      unfold Res.mapM'
      rw [hl, Res.ok_bind, machine_readVec hA h1, Res.ok_bind, hc v (by simp)]
      dsimp only
      rw [ih (fun w hw => hc w (List.mem_cons_of_mem _ hw)) (Res.mapM'_eq_ok.2 h2)]
      rfl

theorem machine_readVecs_map (hA : OneOk A N) {lines : List Str} {p n : Nat} {conv : Vec → Res Vec} {f g : Vec → Vec}
    (hc : ∀ v, conv (floatV N (f v)) = .ok (g v)) (vs : List Vec) (h : readVecs lines p n .ok = .ok (vs.map f)) : A.readVecs lines p n conv = .ok (vs.map g) := by
  unfold readVecs at h
  unfold Arith.readVecs
  generalize List.range n = l at h
  induction l generalizing vs with
  | nil =>
    cases vs with
    | nil => rfl
    | cons w ws => cases h
  | cons i l ih =>
    rw [Res.mapM'_eq_ok] at h
    cases vs with
    | nil => cases h
    | cons w ws =>
      rw [List.map_cons] at h
      cases h with
      | cons h1 h2 =>
        obtain ⟨line, hl, h1⟩ := Res.bind_eq_ok.1 h1
        rw [bind_ok_id] at h1
        unfold Res.mapM'
        rw [hl, Res.ok_bind, machine_readVec hA h1, Res.ok_bind, hc w]
        dsimp only
        rw [ih ws (Res.mapM'_eq_ok.2 h2)]
        rfl

theorem machine_readPredAfter (hA : OneOk A N) {lines : List Str} {p n : Nat} {o : Option (List Vec)} (h : readPredAfter lines p n = .ok o) :
    A.readPredAfter lines p n = .ok (o.map (List.map (floatV N))) := by
  unfold readPredAfter at h
  unfold Arith.readPredAfter
  split at h
  · rename_i hp
    rw [if_pos hp]
    obtain ⟨l, hl, h⟩ := Res.bind_eq_ok.1 h
    rw [hl, Res.ok_bind]
    split at h
    · rename_i hb
      rw [if_pos hb]
      obtain ⟨l', hl', h⟩ := Res.bind_eq_ok.1 h
      obtain ⟨w, hw, h⟩ := Res.bind_eq_ok.1 h
      rw [hl', Res.ok_bind, hw, Res.ok_bind]
      split at h
      · rename_i hn
        rw [if_pos hn]
        obtain ⟨vs, hvs, h⟩ := Res.bind_eq_ok.1 h
        cases h
        rw [machine_readVecs hA hvs (f := floatV N) (fun v _ => rfl), Res.ok_bind]
        rfl
      · rename_i hn
        rw [if_neg hn]
        cases h; rfl
    · rename_i hb
      rw [if_neg hb]
      cases h; rfl
  · rename_i hp
    rw [if_neg hp]
    cases h; rfl

theorem near_one (hA : OneOk A N) : A.num 1 = 1 := by rw [hA.num]; exact near_of_mem hA.one

theorem machine_readRow (hA : OneOk A N) (prec : Nat) (v : Vec) :
    A.readRow (vecLine prec v ++ ['\n']) = .ok [(floatV N (roundV prec v)).x, (floatV N (roundV prec v)).y, (floatV N (roundV prec v)).z] := by
  have h := readRow_vecLine prec v
  unfold readRow at h
  unfold Arith.readRow
  rw [Res.mapM'_eq_ok] at h ⊢
  have key : ∀ (ws : List Str) (xs : List Rat), List.Forall₂ (fun a b => Kpoints.toFloat a = .ok b) ws xs →
      List.Forall₂ (fun a b => A.toFloat a = .ok b) ws (xs.map N.near) := by
    intro ws xs hf
    induction hf with
    | nil => exact .nil
    | cons h1 _ ih => exact .cons (by unfold Arith.toFloat; rw [h1, Res.ok_bind, hA.num]) ih
  exact key _ _ h

/-- Everything in a cell is a machine number after reading. -/
structure Readable (N : Floats) (c : Cell) : Prop where
  a : MemV N (floatV N c.a)
  b : MemV N (floatV N c.b)
  c : MemV N (floatV N c.c)

theorem machine_readHeader (hA : OneOk A N) (prec : Nat) (direct : Bool) (comment : Val) (c : Cell) (g : Grouped) (tail : List Str)
    (hnames : ∀ k ∈ g.species, Token (capitalize k) ∧ pyFloat (capitalize k) = none) (hm : Readable N (roundM prec c)) :
    A.readHeader ((headLines prec comment c g ++ modeLines direct g).map (· ++ ['\n']) ++ tail) =
      .ok ⟨readBack (headline (compound g.species g.nums) comment), 1, some (floatM N (roundM prec c)), g.species.map capitalize,
        g.nums.map (fun n : Nat => (n : Int)), g.selective, direct, (headLines prec comment c g ++ modeLines direct g).length⟩ := by
  have hw : words (fmtFixed (prec + 4) prec 1 ++ ['\n']) = [fmtFixedRaw prec 1] := by rw [Incar.words_newline, words_fmtFixed]
  have h1 : A.toFloat (fmtFixedRaw prec 1) = .ok 1 := by unfold Arith.toFloat; rw [Kpoints.toFloat_fmt, roundDec_one, Res.ok_bind, near_one hA]
  have hs := speciesLine_not_numbers g.species hnames
  have hws : words (speciesLine g.species ++ ['\n']) = g.species.map capitalize := by
    rw [Incar.words_newline, words_speciesLine _ (fun k hk => (hnames k hk).1)]
  have hwc : Res.mapM' toInt (words (countLine g.nums ++ ['\n'])) = .ok (g.nums.map fun n : Nat => (n : Int)) := by
    rw [Incar.words_newline, words_countLine]
    have := Kpoints.mapM'_toInt (g.nums.map fun n : Nat => (n : Int))
    rw [List.map_map] at this
    exact this
  have hc : strip ((headline (compound g.species g.nums) comment ++ ['\n']).filter (· != '#')) =
      readBack (headline (compound g.species g.nums) comment) := by
    rw [List.filter_append]
    exact Eol.strip (.inr rfl) _
  have hcell : A.makeCell 1 [(floatV N (roundV prec c.a)).x, (floatV N (roundV prec c.a)).y, (floatV N (roundV prec c.a)).z]
      [(floatV N (roundV prec c.b)).x, (floatV N (roundV prec c.b)).y, (floatV N (roundV prec c.b)).z]
      [(floatV N (roundV prec c.c)).x, (floatV N (roundV prec c.c)).y, (floatV N (roundV prec c.c)).z] = .ok (some (floatM N (roundM prec c))) := by
    have e : ∀ v : Vec, MemV N v → v.map (A.mul 1) = v := by
      intro v hv
      unfold V3.map
      rw [hA.one_mul _ hv.x, hA.one_mul _ hv.y, hA.one_mul _ hv.z]
    show Res.ok (some (⟨(floatV N (roundM prec c).a).map (A.mul 1), (floatV N (roundM prec c).b).map (A.mul 1), (floatV N (roundM prec c).c).map (A.mul 1)⟩ : Cell)) = _
    rw [e _ hm.a, e _ hm.b, e _ hm.c]
    rfl
  unfold Arith.readHeader headLines modeLines
  have h10 : ¬ (1 : Rat) < 0 := by norm_num
  cases hsel : g.selective with
  | true =>
    simp only [if_true, List.cons_append, List.nil_append, List.map_cons, idx, List.getElem?_cons_succ, List.getElem?_cons_zero,
      Res.ok_bind, hw, h1, hs, machine_readRow hA, hcell, hws, hwc, hc, List.length_cons, h10, if_false]
    cases direct <;> simp [coordLine, lowerC]
  | false =>
    simp only [Bool.false_eq_true, if_false, List.cons_append, List.nil_append, List.map_cons, idx, List.getElem?_cons_succ, List.getElem?_cons_zero,
      Res.ok_bind, hw, h1, hs, machine_readRow hA, hcell, hws, hwc, hc, List.length_cons, h10]
    cases direct <;> simp [coordLine, lowerC]

/-- The numbers printed for a vector. -/
def Arith.shown (A : Arith) (direct : Bool) (c : Cell) (v : Vec) : Vec := if direct then v else A.toCart v c

/-- The vector the reader makes of them. -/
def Arith.back (A : Arith) (N : Floats) (prec : Nat) (direct : Bool) (c : Cell) (v : Vec) : Vec :=
  if direct then floatV N (roundV prec v) else (A.toDir (floatV N (roundV prec (A.toCart v c))) (floatM N (roundM prec c))).getD v

/-- The site the reader makes. -/
def Arith.reread (A : Arith) (N : Floats) (prec : Nat) (direct : Bool) (c : Cell) (s : Site) : Site :=
  Site.new s.getSpecie (A.back N prec direct c s.position) s.selective (s.velocities.map (A.back N prec direct c))
    (s.predictors.map fun v => floatV N (roundV prec v)) true

/-- For cartesian output the cell read has to be invertible for the machine. -/
def InvOk (A : Arith) (N : Floats) (prec : Nat) (direct : Bool) (c : Cell) : Prop :=
  direct = false → ∃ Y, A.inv (floatM N (roundM prec c)) = some Y

/-- The lines written. -/
def machineLines (A : Arith) (prec : Nat) (direct : Bool) (comment : Val) (c : Cell) (g : Grouped) (vels preds : Option (List Vec)) : List Str :=
  headLines prec comment c g ++ modeLines direct g ++ g.sites.map (A.posLine prec direct c g.selective) ++
    (match vels with | some v => coordLine direct :: v.map (fun v => vecLine prec (A.shown direct c v)) | none => []) ++
    (match preds with | some v => predLines prec v | none => [])

theorem memV_float {prec : Nat} {v : Vec} (h : MemV N v) : MemV N (floatV N (roundV prec v)) :=
  ⟨N.near_mem _ (N.roundDec_bound h.x), N.near_mem _ (N.roundDec_bound h.y), N.near_mem _ (N.roundDec_bound h.z)⟩

theorem machine_conv {prec : Nat} {direct : Bool} {c : Cell} (hi : InvOk A N prec direct c) (v : Vec) :
    (if direct then .ok (floatV N (roundV prec (A.shown direct c v))) else A.toDirect (floatV N (roundV prec (A.shown direct c v))) (some (floatM N (roundM prec c)))) =
      Res.ok (A.back N prec direct c v) := by
  unfold Arith.shown Arith.back
  cases direct with
  | true => rfl
  | false =>
    obtain ⟨Y, hY⟩ := hi rfl
    simp [Arith.toDirect, Arith.toDir, hY]

theorem machine_assemble {prec : Nat} {direct : Bool} {c : Cell} {sites : List Site} {vels preds : Option (List Vec)}
    (hv : Gathered Site.velocities sites vels) (hp : Gathered Site.predictors sites preds) :
    assemble (sites.map fun s => ⟨s.getSpecie, A.back N prec direct c s.position, s.selective⟩)
      (vels.map (List.map (A.back N prec direct c))) (preds.map (List.map fun v => floatV N (roundV prec v))) = sites.map (A.reread N prec direct c) := by
  unfold assemble
  apply List.ext_getElem?
  intro k
  rw [List.getElem?_map, List.getElem?_zipIdx, List.getElem?_map, List.getElem?_map]
  cases hk : sites[k]? with
  | none => rfl
  | some s =>
    simp only [Option.map_some, Nat.zero_add]
    rw [gathered_get hv _ k s hk, gathered_get hp _ k s hk]
    rfl

/-- The structure whose direct coordinates are the numbers printed. -/
def Arith.flat (A : Arith) (direct : Bool) (c : Cell) (g : Grouped) : Grouped :=
  { g with sites := g.sites.map fun s => { s with position := A.shown direct c s.position } }

theorem wellGrouped_flat {direct : Bool} {c : Cell} {g : Grouped} (hg : WellGrouped g) : WellGrouped (A.flat direct c g) := by
  refine ⟨hg.lengths, hg.positive, ?_, ?_, ?_, ?_⟩
  · show expand g.species g.nums = _
    rw [hg.expand]
    simp only [Arith.flat, List.map_map]
    rfl
  · show g.selective = _
    rw [hg.selective]
    simp only [Arith.flat, List.any_map]
    rfl
  · show g.velocities = _
    rw [hg.velocities]
    simp only [Arith.flat, List.any_map]
    rfl
  · show g.predictors = _
    rw [hg.predictors]
    simp only [Arith.flat, List.any_map]
    rfl

theorem machine_readSites_written (hA : OneOk A N) {prec : Nat} {direct : Bool} {c : Cell} (hi : InvOk A N prec direct c) {g : Grouped} (hg : WellGrouped g)
    (hpos : ∀ s ∈ g.sites, MemV N (A.shown direct c s.position)) (h : Header) (hdir : h.direct = direct) (hs : h.scaling = 1)
    (hcell : h.cell = some (floatM N (roundM prec c))) (hsp : h.spec = g.species)
    (hat : h.atoms = g.nums.map fun n : Nat => (n : Int)) (hsel : h.selective = g.selective) (B C : List Str) (hB : B.length = h.loopmax) :
    A.readSites h (B ++ (g.sites.map (fun s => A.posLine prec direct c g.selective s ++ ['\n']) ++ C)) g.sites.length 0 0 1 =
      .ok (g.sites.map fun s => ⟨s.getSpecie, A.back N prec direct c s.position, s.selective⟩) := by
  have hw := readSites_written (prec := prec) (direct := true) (c := c) (fun hd => absurd hd (by decide)) (wellGrouped_flat (A := A) (direct := direct) (c := c) hg)
    { h with direct := true, cell := some (roundM prec c) } rfl hs rfl hsp hat hsel B C hB
  have hl : (A.flat direct c g).sites.map (fun s => posLine prec true c (A.flat direct c g).selective s ++ ['\n']) =
      g.sites.map (fun s => A.posLine prec direct c g.selective s ++ ['\n']) := by
    simp only [Arith.flat, List.map_map]
    rfl
  have hlen : (A.flat direct c g).sites.length = g.sites.length := by simp [Arith.flat]
  rw [hl, hlen] at hw
  have hr : (A.flat direct c g).sites.map (fun s => (⟨s.getSpecie, backV prec true c s.position, s.selective⟩ : Raw)) =
      g.sites.map fun s => ⟨s.getSpecie, roundV prec (A.shown direct c s.position), s.selective⟩ := by
    simp only [Arith.flat, List.map_map]
    rfl
  rw [hr] at hw
  -- the conversion depends on the printed vector only
  have hconv : ∀ s ∈ g.sites, ∀ line, readVec line = .ok (roundV prec (A.shown direct c s.position)) →
      A.readPos h line = .ok (A.back N prec direct c s.position) := by
    intro s hs' line hline
    unfold Arith.readPos
    rw [machine_readVec hA hline, Res.ok_bind]
    have hm := memV_float (prec := prec) (hpos s hs')
    have e1 : (floatV N (roundV prec (A.shown direct c s.position))).map (fun x => A.mul x (if h.direct then 1 else h.scaling)) =
        floatV N (roundV prec (A.shown direct c s.position)) := by
      rw [hs, ite_self]
      show (⟨A.mul _ 1, A.mul _ 1, A.mul _ 1⟩ : Vec) = _
      rw [hA.mul_one _ hm.x, hA.mul_one _ hm.y, hA.mul_one _ hm.z]
    dsimp only
    rw [e1, hdir, hcell]
    exact machine_conv hi s.position
  have key : ∀ (n i slot : Nat) (index : Int) (lines : List Str) (sites : List Site),
      (∀ s ∈ sites, ∀ line, readVec line = .ok (roundV prec (A.shown direct c s.position)) → A.readPos h line = .ok (A.back N prec direct c s.position)) →
      readSites { h with direct := true, cell := some (roundM prec c) } lines n i slot index =
        .ok (sites.map fun s => ⟨s.getSpecie, roundV prec (A.shown direct c s.position), s.selective⟩) →
      A.readSites h lines n i slot index = .ok (sites.map fun s => ⟨s.getSpecie, A.back N prec direct c s.position, s.selective⟩) := by
    intro n
    induction n with
    | zero =>
      intro i slot index lines sites _ h0
      cases sites with
      | nil => rfl
      | cons s ss => cases h0
    | succ n ih =>
      intro i slot index lines sites hcv h0
      unfold readSites at h0
      dsimp only at h0
      obtain ⟨a, ha, h0⟩ := Res.bind_eq_ok.1 h0
      obtain ⟨sp, hsp', h0⟩ := Res.bind_eq_ok.1 h0
      obtain ⟨line, hln, h0⟩ := Res.bind_eq_ok.1 h0
      obtain ⟨v, hv, h0⟩ := Res.bind_eq_ok.1 h0
      obtain ⟨fl, hf, h0⟩ := Res.bind_eq_ok.1 h0
      obtain ⟨rest, hrest, h0⟩ := Res.bind_eq_ok.1 h0
      cases sites with
      | nil => cases h0
      | cons s ss =>
        rw [List.map_cons] at h0
        injection h0 with h0
        injection h0 with h1 h2
        injection h1 with h3 h4 h5
        subst h3 h4 h5 h2
        have hv' : readVec line = .ok (roundV prec (A.shown direct c s.position)) := by
          unfold readPos at hv
          simp only [if_true] at hv
          rw [bind_ok_id] at hv
          exact hv
        unfold Arith.readSites
        dsimp only
        rw [ha, Res.ok_bind, hsp', Res.ok_bind, hln, Res.ok_bind, hcv s (by simp) line hv', Res.ok_bind, hf, Res.ok_bind,
          ih _ _ _ lines ss (fun t ht => hcv t (by simp [ht])) hrest, Res.ok_bind]
        rfl
  exact key _ _ _ _ _ g.sites hconv hw

theorem machine_parse (hA : OneOk A N) {prec : Nat} {direct : Bool} {comment : Val} {c : Cell} (hi : InvOk A N prec direct c)
    (hm : Readable N (roundM prec c)) {g : Grouped} (hg : WellGrouped g) (hnames : ∀ s ∈ g.sites, Token s.getSpecie ∧ pyFloat s.getSpecie = none)
    (hpos : ∀ s ∈ g.sites, MemV N (A.shown direct c s.position)) {vels preds : Option (List Vec)}
    (hv : Gathered Site.velocities g.sites vels) (hp : Gathered Site.predictors g.sites preds) :
    A.parse ((machineLines A prec direct comment c g vels preds).map (· ++ ['\n'])) =
      .ok ⟨readBack (headline (compound g.species g.nums) comment), some (floatM N (roundM prec c)), g.sites.map (A.reread N prec direct c)⟩ := by
  have hspc : ∀ k ∈ g.species, Token (capitalize k) ∧ pyFloat (capitalize k) = none := by
    intro k hk
    obtain ⟨s, hs, rfl⟩ := species_mem hg hk
    rw [capitalize_getSpecie]
    exact hnames s hs
  have hex := length_expand hg.lengths
  rw [hg.expand, List.length_map] at hex
  have hsum : ((g.nums.map fun n : Nat => (n : Int)).sum).toNat = g.sites.length := by rw [sum_cast, hex]; rfl
  have hnn : ¬ (g.nums.map fun n : Nat => (n : Int)).sum < 0 := by rw [sum_cast]; omega
  have hlines : (machineLines A prec direct comment c g vels preds).map (· ++ ['\n']) =
      (headLines prec comment c g ++ modeLines direct g).map (· ++ ['\n']) ++
        (g.sites.map (fun s => A.posLine prec direct c g.selective s ++ ['\n']) ++
          ((match vels with | some v => coordLine direct :: v.map (fun v => vecLine prec (A.shown direct c v)) | none => []) ++
            (match preds with | some v => predLines prec v | none => [])).map (· ++ ['\n'])) := by
    unfold machineLines
    simp only [List.map_append, List.append_assoc, List.map_map]
    rfl
  rw [hlines]
  unfold Arith.parse
  rw [machine_readHeader hA _ _ _ _ _ _ hspc hm, Res.ok_bind]
  dsimp only
  rw [if_neg hnn, hsum, species_capitalized hg]
  generalize hA' : (headLines prec comment c g ++ modeLines direct g) = hmo
  rw [machine_readSites_written hA hi hg hpos ⟨readBack (headline (compound g.species g.nums) comment), 1, some (floatM N (roundM prec c)), g.species,
        g.nums.map (fun n : Nat => (n : Int)), g.selective, direct, hmo.length⟩ rfl rfl rfl rfl rfl rfl
      (hmo.map (· ++ ['\n'])) _ (by simp), Res.ok_bind]
  have hB : (hmo.map (· ++ ['\n']) ++ g.sites.map (fun s => A.posLine prec direct c g.selective s ++ ['\n'])).length =
      g.sites.length + hmo.length := by simp; omega
  rw [← List.append_assoc]
  generalize (hmo.map (· ++ ['\n']) ++ g.sites.map (fun s => A.posLine prec direct c g.selective s ++ ['\n'])) = B at hB ⊢
  rw [← machine_assemble hv hp, ← hB]
  have hlv : ∀ vs, vels = some vs → vs.length = g.sites.length := fun vs h => by subst h; exact gathered_length hv
  have hlp : ∀ vs, preds = some vs → vs.length = g.sites.length := fun vs h => by subst h; exact gathered_length hp
  cases vels with
  | none =>
    cases preds with
    | none =>
      simp only [List.nil_append, List.map_nil]
      rw [readTail_nil]
      rfl
    | some ps =>
      have hne : ps ≠ [] := by
        rintro rfl
        have := hlp [] rfl
        exact hp.1 (List.length_eq_zero_iff.1 (by simpa using this.symm))
      obtain ⟨p0, prest, rfl⟩ := List.exists_cons_of_ne_nil hne
      simp only [List.nil_append, predLines, List.map_cons]
      rw [readTail_pred]
      simp only [Res.ok_bind, Bool.false_eq_true, if_false, if_true]
      have hb := readVecs_block (B ++ [['\n']]) [] (p0 :: prest) id prec .ok (roundV prec) (fun w _ => rfl)
      have hl : (B ++ [['\n']]).length = B.length + 1 := by simp
      rw [hl, hlp _ rfl] at hb
      simp only [List.map_cons, List.append_assoc, List.singleton_append, List.append_nil, id] at hb
      rw [List.map_map]
      have hf : ((fun x => x ++ ['\n']) ∘ vecLine prec) = fun v => vecLine prec v ++ ['\n'] := rfl
      rw [hf, machine_readVecs hA hb (f := floatV N) (fun v _ => rfl), Res.ok_bind]
      simp only [Option.map_some, Option.map_none, List.map_cons, List.map_map]
      rfl
  | some vs =>
    have hne : vs ≠ [] := by
      rintro rfl
      have := hlv [] rfl
      exact hv.1 (List.length_eq_zero_iff.1 (by simpa using this.symm))
    have hvl : (coordLine direct :: vs.map (fun v => vecLine prec (A.shown direct c v))).map (· ++ ['\n']) =
        [coordLine direct ++ ['\n']] ++ vs.map (fun v => vecLine prec (A.shown direct c v) ++ ['\n']) := by
      simp only [List.map_cons, List.map_map]
      rfl
    have hb := fun C => readVecs_block (B ++ [coordLine direct ++ ['\n']]) C vs (A.shown direct c) prec .ok (fun v => roundV prec (A.shown direct c v)) (fun w _ => rfl)
    have hl : (B ++ [coordLine direct ++ ['\n']]).length = B.length + 1 := by simp
    simp only [hl, hlv _ rfl] at hb
    have htail : ∀ C, readTail (B ++ ((coordLine direct :: vs.map (fun v => vecLine prec (A.shown direct c v))).map (· ++ ['\n']) ++ C)) B.length =
        .ok (true, !direct, false) := by
      intro C
      obtain ⟨v0, vrest, rfl⟩ := List.exists_cons_of_ne_nil hne
      simp only [List.map_cons, List.cons_append]
      exact readTail_vel _ _ _ _ _
    have hvec : ∀ C, A.readVecs (B ++ ((coordLine direct :: vs.map (fun v => vecLine prec (A.shown direct c v))).map (· ++ ['\n']) ++ C)) (B.length + 1) g.sites.length
        (fun v => if (direct && !(!direct)) = true then Res.ok v else A.toDirect v (some (floatM N (roundM prec c)))) =
        .ok (vs.map (A.back N prec direct c)) := by
      intro C
      have hb' : readVecs (B ++ ((coordLine direct :: vs.map (fun v => vecLine prec (A.shown direct c v))).map (· ++ ['\n']) ++ C)) (B.length + 1) g.sites.length .ok =
          .ok (vs.map fun v => roundV prec (A.shown direct c v)) := by
        rw [← hb C, hvl]
        simp only [List.append_assoc]
      exact machine_readVecs_map hA (fun w => by rw [← machine_conv hi w]; cases direct <;> rfl) vs hb'
    have hpred : ∀ C, readPredAfter (B ++ ((coordLine direct :: vs.map (fun v => vecLine prec (A.shown direct c v))).map (· ++ ['\n']) ++ C)) (g.sites.length + (B.length + 1)) g.sites.length =
        readPredAfter ((B ++ (coordLine direct :: vs.map (fun v => vecLine prec (A.shown direct c v))).map (· ++ ['\n'])) ++ C)
          (B ++ (coordLine direct :: vs.map (fun v => vecLine prec (A.shown direct c v))).map (· ++ ['\n'])).length g.sites.length := by
      intro C
      have hlen : (B ++ (coordLine direct :: vs.map (fun v => vecLine prec (A.shown direct c v))).map (· ++ ['\n'])).length = g.sites.length + (B.length + 1) := by
        rw [hvl]; simp [hlv vs rfl]; omega
      rw [hlen, List.append_assoc]
    rw [List.map_append, htail, Res.ok_bind]
    simp only [if_true]
    rw [hvec, Res.ok_bind]
    cases preds with
    | none =>
      simp only [List.map_nil]
      have := hpred []
      rw [readPredAfter_nil] at this
      rw [machine_readPredAfter hA this]
      rfl
    | some ps =>
      have hne : ps ≠ [] := by
        rintro rfl
        have := hlp [] rfl
        exact hp.1 (List.length_eq_zero_iff.1 (by simpa using this.symm))
      simp only
      have := hpred ((predLines prec ps).map (· ++ ['\n']))
      conv_rhs at this => rw [← hlp ps rfl]
      rw [readPredAfter_some _ _ _ hne] at this
      rw [machine_readPredAfter hA this, Res.ok_bind]
      simp only [Option.map_some, List.map_map]
      rfl

/-! ### writing -/

theorem machine_velLines {prec : Nat} {direct : Bool} {c : Cell} {sites : List Site} {ls : List Str}
    (h : Res.mapM' (A.velLine prec direct c) sites = .ok ls) :
    ∃ vs : List Vec, sites.map Site.velocities = vs.map some ∧ ls = vs.map fun v => vecLine prec (A.shown direct c v) := by
  induction sites generalizing ls with
  | nil => cases h; exact ⟨[], rfl, rfl⟩
  | cons s ss ih =>
    rw [Res.mapM'_eq_ok] at h
    cases h with
    | cons h1 h2 =>
      obtain ⟨vs, hv, rfl⟩ := ih (Res.mapM'_eq_ok.2 h2)
      unfold Arith.velLine at h1
      cases hsv : s.velocities with
      | none => rw [hsv] at h1; cases h1
      | some v =>
        rw [hsv] at h1
        cases h1
        exact ⟨v :: vs, by simp [hsv, hv], rfl⟩

theorem machine_writeGrouped {prec : Nat} {direct : Bool} {comment : Val} {c : Cell} {g : Grouped} (hg : WellGrouped g) {text : Str}
    (h : A.writeGrouped prec direct comment c g = .ok text) :
    ∃ vels preds, Gathered Site.velocities g.sites vels ∧ Gathered Site.predictors g.sites preds ∧
      text = unlines (machineLines A prec direct comment c g vels preds) := by
  unfold Arith.writeGrouped at h
  dsimp only at h
  obtain ⟨vs, hvs, h⟩ := Res.bind_eq_ok.1 h
  obtain ⟨ps, hps, h⟩ := Res.bind_eq_ok.1 h
  cases h
  have hv : ∃ vels, Gathered Site.velocities g.sites vels ∧
      vs = (match vels with | some v => coordLine direct :: v.map (fun v => vecLine prec (A.shown direct c v)) | Option.none => []) := by
    split at hvs
    · rename_i hb
      obtain ⟨ls, hls, h⟩ := Res.bind_eq_ok.1 hvs
      cases h
      obtain ⟨vels, h1, h2⟩ := machine_velLines hls
      refine ⟨some vels, ⟨?_, h1⟩, by rw [h2]; rfl⟩
      rw [hg.velocities] at hb
      exact any_isSome_true (f := Site.velocities) hb
    · rename_i hb
      cases hvs
      refine ⟨Option.none, ?_, rfl⟩
      rw [hg.velocities, Bool.not_eq_true] at hb
      exact any_isSome_false hb
  have hp : ∃ preds, Gathered Site.predictors g.sites preds ∧
      ps = (match preds with | some v => predLines prec v | Option.none => []) := by
    split at hps
    · rename_i hb
      obtain ⟨ls, hls, h⟩ := Res.bind_eq_ok.1 hps
      cases h
      obtain ⟨preds, h1, h2⟩ := mapM'_predLine hls
      refine ⟨some preds, ⟨?_, h1⟩, by rw [h2]; rfl⟩
      rw [hg.predictors] at hb
      exact any_isSome_true (f := Site.predictors) hb
    · rename_i hb
      cases hps
      refine ⟨Option.none, ?_, rfl⟩
      rw [hg.predictors, Bool.not_eq_true] at hb
      exact any_isSome_false hb
  obtain ⟨vels, hv1, hv2⟩ := hv
  obtain ⟨preds, hp1, hp2⟩ := hp
  refine ⟨vels, preds, hv1, hp1, ?_⟩
  rw [withNewlines_eq]
  congr 1
  rw [hv2, hp2]
  unfold machineLines headLines modeLines coordLine speciesLine countLine
  simp only [List.append_assoc]

theorem machineLines_noBreak {prec : Nat} {direct : Bool} {cm : Option Str} {c : Cell} {g : Grouped} {vels preds : Option (List Vec)}
    (hs : ∀ k ∈ g.species, Token (capitalize k)) (hcm : ∀ s, cm = some s → Free isLineBreak s) :
    ∀ l ∈ machineLines A prec direct (commentVal cm) c g vels preds, Free isLineBreak l := by
  have hold : ∀ l ∈ fileLines prec direct (commentVal cm) c g vels preds, Free isLineBreak l := fileLines_noBreak hs hcm
  intro l hl
  unfold machineLines at hl
  simp only [List.mem_append] at hl
  rcases hl with (((hl | hl) | hl) | hl) | hl
  · exact hold l (by unfold fileLines; simp [hl])
  · exact hold l (by unfold fileLines; simp [hl])
  · obtain ⟨s, _, rfl⟩ := List.mem_map.1 hl
    exact posLine_noBreak prec true c g.selective { s with position := A.shown direct c s.position }
  · cases vels with
    | none => simp at hl
    | some vs =>
      rcases List.mem_cons.1 hl with rfl | hl
      · unfold Free; cases direct <;> decide
      · obtain ⟨v, _, rfl⟩ := List.mem_map.1 hl
        exact vecLine_noBreak _ _
  · exact hold l (by unfold fileLines; simp only [List.mem_append]; exact .inr hl)

theorem machine_write_holds {e : Entries} {cm : Option Str} {c : Cell} {sites : List Site} (h : Holds e cm c sites) (prec : Nat) (conserve direct : Bool) :
    A.write prec conserve direct e = A.writeGrouped prec direct (commentVal cm) c (group conserve sites) := by
  unfold Arith.write
  rw [validate_holds h, Res.ok_bind]
  unfold lookup
  simp only [h.comment, h.cell, Res.ok_bind, sortAndGroup_stores h.stores conserve]

theorem machine_read_lines {ls : List Str} (hls : ∀ l ∈ ls, Free isLineBreak l) {p : Parsed} {c : Cell} (hc : p.cell = some c)
    (hd : ∀ s ∈ p.sites, s.direct = true) (hp : A.parse (ls.map (· ++ ['\n'])) = .ok p) (string : Bool) : A.read string (unlines ls) = .ok p.toEntries := by
  have hr := (Kpoints.read_unlines ls hls).1
  have hs := splitlinesKeep_unlines ls hls
  have hfl : A.fromList (ls.map (· ++ ['\n'])) = .ok p.toEntries := by unfold Arith.fromList; rw [hp]; rfl
  have hh := holds_toEntries p c hc hd
  have hfd : fromDict p.toEntries = .ok p.toEntries := fromDict_direct hh.stores rfl
  have hv := validate_holds hh
  unfold Arith.read
  cases string <;> simp only [if_true, Bool.false_eq_true, if_false, hr, hs, hfl, Res.ok_bind, hfd, hv]

/-- What the machine can hold: the numbers of the cell and the printed coordinates are machine numbers, and the cell read back is invertible for it. -/
structure Held (A : Arith) (N : Floats) (prec : Nat) (direct : Bool) (c : Cell) (sites : List Site) : Prop where
  cell : MemM N c
  position : ∀ s ∈ sites, MemV N (A.shown direct c s.position)
  inv : InvOk A N prec direct c

theorem machine_write_read (hA : OneOk A N) {e : Entries} {cm : Option Str} {c : Cell} {sites : List Site} (h : Holds e cm c sites) (hpr : Printable cm sites)
    {prec : Nat} {conserve direct : Bool} (hh : Held A N prec direct c sites) {text : Str} (hw : A.write prec conserve direct e = .ok text) (string : Bool) :
    A.read string text = .ok (Parsed.toEntries ⟨readBack (headline (compound (group conserve sites).species (group conserve sites).nums) (commentVal cm)),
      some (floatM N (roundM prec c)), (group conserve sites).sites.map (A.reread N prec direct c)⟩) := by
  rw [machine_write_holds h] at hw
  obtain ⟨hg, hperm⟩ := wellGrouped_group h.direct conserve
  obtain ⟨vels, preds, hv, hp, rfl⟩ := machine_writeGrouped hg hw
  have hnames : ∀ s ∈ (group conserve sites).sites, Token s.getSpecie ∧ pyFloat s.getSpecie = none :=
    fun s hs => hpr.names s (hperm.mem_iff.1 hs)
  have hparse := machine_parse hA (comment := commentVal cm) hh.inv ⟨memV_float hh.cell.row1, memV_float hh.cell.row2, memV_float hh.cell.row3⟩ hg hnames
    (fun s hs => hh.position s (hperm.mem_iff.1 hs)) hv hp
  have hsp : ∀ k ∈ (group conserve sites).species, Token (capitalize k) := by
    intro k hk
    obtain ⟨s, hs, rfl⟩ := species_mem hg hk
    rw [capitalize_getSpecie]
    exact (hnames s hs).1
  refine machine_read_lines (machineLines_noBreak hsp hpr.comment) rfl ?_ hparse string
  intro s hs
  obtain ⟨t, _, rfl⟩ := List.mem_map.1 hs
  rfl

/-! ### rounding -/

/-- A number less than half a unit of the last digit away from a printed number is printed like it (but for the sign of a zero). -/
theorem roundDec_of_near {p : Nat} {x y : Rat} (h : |y - roundDec p x| < 1 / (2 * 10 ^ p)) : roundDec p y = roundDec p x := by
  have hp : (0 : Rat) < 10 ^ p := by positivity
  have hk : |roundDec p x| = (scaledAbs p x : Rat) / 10 ^ p := by
    have : (0 : Rat) ≤ (scaledAbs p x : Rat) / 10 ^ p := by positivity
    unfold roundDec
    split
    · rw [abs_neg, abs_of_nonneg this]
    · rw [abs_of_nonneg this]
  have hs : scaledAbs p y = scaledAbs p x := by
    apply scaledAbs_unique
    left
    have h1 := lt_of_le_of_lt (abs_abs_sub_abs_le y (roundDec p x)) h
    rw [hk] at h1
    have e : |y| * 10 ^ p - scaledAbs p x = (|y| - (scaledAbs p x : Rat) / 10 ^ p) * 10 ^ p := by
      rw [sub_mul, div_mul_cancel₀ _ hp.ne']
    rw [e, abs_mul, abs_of_pos hp]
    calc |(|y|) - (scaledAbs p x : Rat) / 10 ^ p| * 10 ^ p < 1 / (2 * 10 ^ p) * 10 ^ p := mul_lt_mul_of_pos_right h1 hp
      _ = 1 / 2 := by field_simp
  by_cases h0 : scaledAbs p x = 0
  · have e1 : roundDec p y = 0 := by unfold roundDec; rw [hs, h0]; simp
    have e2 : roundDec p x = 0 := by unfold roundDec; rw [h0]; simp
    rw [e1, e2]
  · have h1 : (1 : Rat) ≤ scaledAbs p x := by exact_mod_cast Nat.pos_of_ne_zero h0
    have h2 : 1 / (10 : Rat) ^ p ≤ (scaledAbs p x : Rat) / 10 ^ p := div_le_div_of_nonneg_right h1 hp.le
    have h3 : 1 / (2 * (10 : Rat) ^ p) < 1 / 10 ^ p := by apply one_div_lt_one_div_of_lt hp; linarith
    rw [abs_lt] at h
    by_cases hx : x < 0
    · have hd : roundDec p x = -((scaledAbs p x : Rat) / 10 ^ p) := by unfold roundDec; rw [if_pos hx]
      rw [hd] at h
      have hy : y < 0 := by linarith [h.2]
      unfold roundDec
      rw [if_pos hx, if_pos hy, hs]
    · have hd : roundDec p x = (scaledAbs p x : Rat) / 10 ^ p := by unfold roundDec; rw [if_neg hx]
      rw [hd] at h
      have hy : ¬ y < 0 := by linarith [h.1]
      unfold roundDec
      rw [if_neg hx, if_neg hy, hs]

theorem roundDec_near_round {p : Nat} {x : Rat} (h : N.mem x) : roundDec p (N.near (roundDec p x)) = roundDec p x := by
  by_cases hz : x < 0 → roundDec p x ≠ 0
  · have := congrArg pyFloatRat (N.fmt_near (p := p) ⟨h, hz⟩)
    rw [pyFloatRat_fmtFixedRaw, pyFloatRat_fmtFixedRaw] at this
    exact Option.some.inj this
  · push Not at hz
    rw [hz.2, near_of_mem N.zero_mem]
    have := roundDec_idem p x
    rwa [hz.2] at this

theorem roundV_near_round {p : Nat} {v : Vec} (h : MemV N v) : roundV p (floatV N (roundV p v)) = roundV p v := by
  simp only [roundV, V3.map, floatV, roundDec_near_round h.x, roundDec_near_round h.y, roundDec_near_round h.z]

/-- Reading rounds by at most the error of printing. -/
theorem near_round_close {p : Nat} {x : Rat} (h : N.mem x) : |N.near (roundDec p x) - x| ≤ 1 / 10 ^ p := by
  have h1 := N.near_best (roundDec p x) x (N.roundDec_bound h) h
  have h2 := roundDec_close p x
  have h3 := abs_add_le (N.near (roundDec p x) - roundDec p x) (roundDec p x - x)
  rw [show N.near (roundDec p x) - x = (N.near (roundDec p x) - roundDec p x) + (roundDec p x - x) by ring]
  have e : |x - roundDec p x| = |roundDec p x - x| := abs_sub_comm _ _
  have e2 : 1 / (10 : Rat) ^ p = 1 / (2 * 10 ^ p) + 1 / (2 * 10 ^ p) := by
    have : (10 : Rat) ^ p ≠ 0 := by positivity
    field_simp; norm_num
  rw [e2]
  linarith

/-! ### C112 -/

/-- The vectors of a site that are converted for cartesian output. -/
def IsVec (s : Site) (v : Vec) : Prop := v = s.position ∨ s.velocities = some v

/-- The machine computes accurately enough with the vector: converting the printed cartesian coordinates `x`, as read, to direct ones and back, with
the cell `c'` as read, gives machine numbers that are less than half a unit of the last printed digit away. -/
def Close (A : Arith) (N : Floats) (prec : Nat) (c' : Cell) (x : Vec) : Prop :=
  ∃ w, A.toDir (floatV N (roundV prec x)) c' = some w ∧ MemV N (A.toCart w c') ∧
    |(A.toCart w c').x - (roundV prec x).x| < 1 / (2 * 10 ^ prec) ∧
    |(A.toCart w c').y - (roundV prec x).y| < 1 / (2 * 10 ^ prec) ∧
    |(A.toCart w c').z - (roundV prec x).z| < 1 / (2 * 10 ^ prec)

/-- What C112 ranges over. -/
structure Ranges (A : Arith) (N : Floats) (prec : Nat) (direct : Bool) (e : Entries) (cm : Option Str) (c : Cell) (sites : List Site) : Prop where
  holds : Holds e cm c sites
  printable : Printable cm sites
  noHash : ∀ s ∈ sites, '#' ∉ s.getSpecie
  cell : MemM N c
  vectors : ∀ s ∈ sites, ∀ v, IsVec s v → MemV N (A.shown direct c v)
  predictors : ∀ s ∈ sites, ∀ v, s.predictors = some v → MemV N v
  inv : InvOk A N prec direct c
  close : direct = false → ∀ s ∈ sites, ∀ v, IsVec s v → Close A N prec (floatM N (roundM prec c)) (A.toCart v c)

theorem Ranges.held {prec : Nat} {direct : Bool} {e : Entries} {cm : Option Str} {c : Cell} {sites : List Site} (h : Ranges A N prec direct e cm c sites) :
    Held A N prec direct c sites := ⟨h.cell, fun s hs => h.vectors s hs _ (.inl rfl), h.inv⟩

theorem roundM_near_round {p : Nat} {c : Cell} (h : MemM N c) : roundM p (floatM N (roundM p c)) = roundM p c := by
  simp only [roundM, floatM, roundV_near_round h.row1, roundV_near_round h.row2, roundV_near_round h.row3]

/-- The printed numbers of a vector read back are those printed before. -/
theorem round_shown_back {prec : Nat} {direct : Bool} {c : Cell} {v : Vec} (hm : MemV N (A.shown direct c v))
    (hc : direct = false → Close A N prec (floatM N (roundM prec c)) (A.toCart v c)) :
    roundV prec (A.shown direct (floatM N (roundM prec c)) (A.back N prec direct c v)) = roundV prec (A.shown direct c v) ∧
      MemV N (A.shown direct (floatM N (roundM prec c)) (A.back N prec direct c v)) := by
  unfold Arith.shown Arith.back at *
  cases direct with
  | true =>
    simp only [if_true] at hm ⊢
    exact ⟨roundV_near_round hm, memV_float hm⟩
  | false =>
    obtain ⟨w, h1, h2, h3, h4, h5⟩ := hc rfl
    simp only [Bool.false_eq_true, if_false, h1, Option.getD_some] at hm ⊢
    refine ⟨?_, h2⟩
    have e := roundDec_of_near h3
    have e' := roundDec_of_near h4
    have e'' := roundDec_of_near h5
    simp only [roundV, V3.map] at *
    rw [e, e', e'']

theorem back_back {prec : Nat} {direct : Bool} {c : Cell} {v : Vec} (hcell : MemM N c) (hm : MemV N (A.shown direct c v)) (hi : InvOk A N prec direct c)
    (hc : direct = false → Close A N prec (floatM N (roundM prec c)) (A.toCart v c)) :
    A.back N prec direct (floatM N (roundM prec c)) (A.back N prec direct c v) = A.back N prec direct c v := by
  have h := (round_shown_back hm hc).1
  cases direct with
  | true =>
    show floatV N (roundV prec (A.back N prec true c v)) = A.back N prec true c v
    have e : A.back N prec true c v = floatV N (roundV prec v) := rfl
    rw [e, roundV_near_round (show MemV N v from hm)]
  | false =>
    obtain ⟨Y, hY⟩ := hi rfl
    generalize hw : A.back N prec false c v = w at h
    have h' : roundV prec (A.toCart w (floatM N (roundM prec c))) = roundV prec (A.toCart v c) := h
    show (A.toDir (floatV N (roundV prec (A.toCart w (floatM N (roundM prec c))))) (floatM N (roundM prec (floatM N (roundM prec c))))).getD w = w
    rw [h', roundM_near_round hcell, ← hw]
    unfold Arith.back Arith.toDir
    rw [hY]
    rfl

theorem reread_reread {prec : Nat} {direct : Bool} {e : Entries} {cm : Option Str} {c : Cell} {sites : List Site} (h : Ranges A N prec direct e cm c sites)
    {s : Site} (hs : s ∈ sites) :
    A.reread N prec direct (floatM N (roundM prec c)) (A.reread N prec direct c s) = A.reread N prec direct c s := by
  have hb : ∀ v, IsVec s v → A.back N prec direct (floatM N (roundM prec c)) (A.back N prec direct c v) = A.back N prec direct c v := fun v hv =>
    back_back h.cell (h.vectors s hs v hv) h.inv fun hd => h.close hd s hs v hv
  have e1 : lower (A.reread N prec direct c s).getSpecie = lower s.getSpecie := by
    show lower (capitalize (lower s.getSpecie)) = _
    rw [capitalize_capitalize_lower, capitalize_getSpecie]
  have e2 : (s.velocities.map (A.back N prec direct c)).map (A.back N prec direct (floatM N (roundM prec c))) = s.velocities.map (A.back N prec direct c) := by
    cases hv : s.velocities with
    | none => rfl
    | some v => simp only [Option.map_some]; rw [hb v (.inr hv)]
  have e3 : (s.predictors.map fun v => floatV N (roundV prec v)).map (fun v => floatV N (roundV prec v)) = s.predictors.map fun v => floatV N (roundV prec v) := by
    cases hv : s.predictors with
    | none => rfl
    | some v => simp only [Option.map_some]; rw [roundV_near_round (h.predictors s hs v hv)]
  show (⟨lower (A.reread N prec direct c s).getSpecie, A.back N prec direct (floatM N (roundM prec c)) (A.back N prec direct c s.position), s.selective,
    (s.velocities.map (A.back N prec direct c)).map (A.back N prec direct (floatM N (roundM prec c))),
    (s.predictors.map fun v => floatV N (roundV prec v)).map (fun v => floatV N (roundV prec v)), true⟩ : Site) = ⟨lower s.getSpecie, _, _, _, _, _⟩
  rw [e1, e2, e3, hb _ (.inl rfl)]

theorem machine_alike (prec : Nat) (direct : Bool) (c : Cell) (s : Site) : Alike (A.reread N prec direct c) s := by
  refine ⟨?_, rfl, ?_, ?_⟩
  · show capitalize (lower s.getSpecie) = s.getSpecie
    rw [capitalize_capitalize_lower, capitalize_getSpecie]
  · show (s.velocities.map _).isSome = _
    cases s.velocities <;> rfl
  · show (s.predictors.map _).isSome = _
    cases s.predictors <;> rfl

theorem mapM'_total {α β} {f : α → Res β} {l : List α} (h : ∀ s ∈ l, ∃ b, f s = .ok b) : ∃ bs, Res.mapM' f l = .ok bs := by
  induction l with
  | nil => exact ⟨[], rfl⟩
  | cons a l ih =>
    obtain ⟨b, hb⟩ := h a (by simp)
    obtain ⟨bs, hbs⟩ := ih fun s hs => h s (by simp [hs])
    exact ⟨b :: bs, by unfold Res.mapM'; rw [hb]; dsimp only; rw [hbs]⟩

/-- Whether a structure can be written depends on the presence of velocities and predictors only. -/
theorem machine_write_again {prec : Nat} {direct : Bool} {cm cm' : Val} {c c' : Cell} {g : Grouped} {f : Site → Site} (hf : ∀ s ∈ g.sites, Alike f s) {text : Str}
    (h : A.writeGrouped prec direct cm c g = .ok text) : ∃ text', A.writeGrouped prec direct cm' c' { g with sites := g.sites.map f } = .ok text' := by
  unfold Arith.writeGrouped at h
  dsimp only at h
  obtain ⟨vs, hvs, h⟩ := Res.bind_eq_ok.1 h
  obtain ⟨ps, hps, h⟩ := Res.bind_eq_ok.1 h
  have h1 : ∃ vs', (if g.velocities then Res.mapM' (A.velLine prec direct c') (g.sites.map f) >>= fun ls => .ok ((if direct then c!"Direct" else c!"Cartesian") :: ls) else Res.ok []) = .ok vs' := by
    split at hvs
    · rename_i hb
      rw [if_pos hb]
      obtain ⟨ls, hls, _⟩ := Res.bind_eq_ok.1 hvs
      obtain ⟨vels, hv, _⟩ := machine_velLines hls
      have : ∃ bs, Res.mapM' (A.velLine prec direct c') (g.sites.map f) = .ok bs := by
        apply mapM'_total
        intro s hs
        obtain ⟨t, ht, rfl⟩ := List.mem_map.1 hs
        have h2 : t.velocities ∈ vels.map some := by rw [← hv]; exact List.mem_map_of_mem ht
        obtain ⟨v, _, hv'⟩ := List.mem_map.1 h2
        have h3 := (hf t ht).velocities
        rw [← hv'] at h3
        obtain ⟨w, hw⟩ := Option.isSome_iff_exists.1 h3
        unfold Arith.velLine
        rw [hw]
        exact ⟨_, rfl⟩
      obtain ⟨bs, hbs⟩ := this
      rw [hbs]
      exact ⟨_, rfl⟩
    · rename_i hb
      rw [if_neg hb]
      exact ⟨[], rfl⟩
  have h2 : ∃ ps', (if g.predictors then Res.mapM' (predLine prec) (g.sites.map f) >>= fun ls => .ok ([] :: ls) else Res.ok []) = .ok ps' := by
    split at hps
    · rename_i hb
      rw [if_pos hb]
      obtain ⟨ls, hls, _⟩ := Res.bind_eq_ok.1 hps
      obtain ⟨vels, hv, _⟩ := mapM'_predLine hls
      have : ∃ bs, Res.mapM' (predLine prec) (g.sites.map f) = .ok bs := by
        apply mapM'_total
        intro s hs
        obtain ⟨t, ht, rfl⟩ := List.mem_map.1 hs
        have h2 : t.predictors ∈ vels.map some := by rw [← hv]; exact List.mem_map_of_mem ht
        obtain ⟨v, _, hv'⟩ := List.mem_map.1 h2
        have h3 := (hf t ht).predictors
        rw [← hv'] at h3
        obtain ⟨w, hw⟩ := Option.isSome_iff_exists.1 h3
        unfold predLine
        rw [hw]
        exact ⟨_, rfl⟩
      obtain ⟨bs, hbs⟩ := this
      rw [hbs]
      exact ⟨_, rfl⟩
    · rename_i hb
      rw [if_neg hb]
      exact ⟨[], rfl⟩
  obtain ⟨vs', hvs'⟩ := h1
  obtain ⟨ps', hps'⟩ := h2
  unfold Arith.writeGrouped
  dsimp only
  rw [hvs', Res.ok_bind, hps', Res.ok_bind]
  exact ⟨_, rfl⟩

/-- A vector and the vector read back: the coordinates of the kind that is written differ by at most one unit of the last printed digit. -/
def SameVecM (A : Arith) (prec : Nat) (direct : Bool) (c c' : Cell) (v v' : Vec) : Prop :=
  Within (1 / 10 ^ prec) (A.shown direct c' v') (A.shown direct c v)

/-- A site and the site read back. -/
structure SameSiteM (A : Arith) (prec : Nat) (direct : Bool) (c c' : Cell) (s s' : Site) : Prop where
  specie : s'.getSpecie = s.getSpecie
  selective : s'.selective = s.selective
  position : SameVecM A prec direct c c' s.position s'.position
  velocities : match s.velocities, s'.velocities with
    | some v, some v' => SameVecM A prec direct c c' v v'
    | none, none => True
    | _, _ => False
  predictors : match s.predictors, s'.predictors with
    | some v, some v' => Within (1 / 10 ^ prec) v' v
    | none, none => True
    | _, _ => False
  direct : s'.direct = true

theorem within_float {p : Nat} {v : Vec} (h : MemV N v) : Within (1 / 10 ^ p) (floatV N (roundV p v)) v :=
  ⟨near_round_close h.x, near_round_close h.y, near_round_close h.z⟩

theorem sameVecM_back {prec : Nat} {direct : Bool} {c : Cell} {v : Vec} (hm : MemV N (A.shown direct c v))
    (hc : direct = false → Close A N prec (floatM N (roundM prec c)) (A.toCart v c)) :
    SameVecM A prec direct c (floatM N (roundM prec c)) v (A.back N prec direct c v) := by
  cases direct with
  | true => exact within_float (show MemV N v from hm)
  | false =>
    obtain ⟨w, h1, h2, h3, h4, h5⟩ := hc rfl
    have e : A.back N prec false c v = w := by
      show (A.toDir _ _).getD v = w
      rw [h1]; rfl
    rw [e]
    have e2 : 1 / (10 : Rat) ^ prec = 1 / (2 * 10 ^ prec) + 1 / (2 * 10 ^ prec) := by
      have : (10 : Rat) ^ prec ≠ 0 := by positivity
      field_simp; norm_num
    show Within _ (A.toCart w _) (A.toCart v c)
    have key : ∀ {y x : Rat}, |y - roundDec prec x| < 1 / (2 * 10 ^ prec) → |y - x| ≤ 1 / 10 ^ prec := fun {y x} h => by
      have := abs_add_le (y - roundDec prec x) (roundDec prec x - x)
      rw [show y - x = (y - roundDec prec x) + (roundDec prec x - x) by ring, e2]
      linarith [roundDec_close prec x]
    exact ⟨key h3, key h4, key h5⟩

/-- C112: a structure is written (direct or cartesian, with or without `conserve_order`) and read back, with machine arithmetic that is accurate enough
(`Ranges.close`). The object read has the written sites in the written order with coordinates at most one unit of the last digit away; it can be
written again, and what is read then, from a file, a handler or a string, is the same object: from then on neither object nor text changes. -/
theorem C112_settles (hA : OneOk A N) (prec : Nat) (conserve direct : Bool) (e : Entries) (cm : Option Str) (c : Cell) (sites : List Site) (text : Str)
    (h : Ranges A N prec direct e cm c sites) (hw : A.write prec conserve direct e = .ok text) :
    ∃ g e' cm' sites' text', sortAndGroup conserve e = .ok g ∧ (∀ string, A.read string text = .ok e') ∧
      Holds e' (some cm') (floatM N (roundM prec c)) sites' ∧
      List.Forall₂ (SameSiteM A prec direct c (floatM N (roundM prec c))) g.sites sites' ∧
      A.write prec conserve direct e' = .ok text' ∧ ∀ string, A.read string text' = .ok e' := by
  obtain ⟨hg, hperm⟩ := wellGrouped_group h.holds.direct conserve
  have hr := machine_write_read hA h.holds h.printable h.held hw
  have hmem : ∀ s ∈ (group conserve sites).sites, s ∈ sites := fun s hs => hperm.mem_iff.1 hs
  have hd' : ∀ s ∈ (group conserve sites).sites.map (A.reread N prec direct c), s.direct = true := by
    intro s hs
    obtain ⟨t, _, rfl⟩ := List.mem_map.1 hs
    rfl
  have hh := holds_toEntries ⟨readBack (headline (compound (group conserve sites).species (group conserve sites).nums) (commentVal cm)),
      some (floatM N (roundM prec c)), (group conserve sites).sites.map (A.reread N prec direct c)⟩ _ rfl hd'
  have hw1 := hw
  rw [machine_write_holds h.holds] at hw1
  have hgr : group conserve ((group conserve sites).sites.map (A.reread N prec direct c)) =
      { group conserve sites with sites := (group conserve sites).sites.map (A.reread N prec direct c) } := by
    rw [group_map conserve (fun s _ => machine_alike prec direct c s), group_fix conserve h.holds.direct]
  obtain ⟨text', hw2⟩ := machine_write_again (cm' := commentVal (some (readBack (headline (compound (group conserve sites).species (group conserve sites).nums)
    (commentVal cm))))) (c' := floatM N (roundM prec c)) (fun s _ => machine_alike (A := A) (N := N) prec direct c s) hw1
  rw [← hgr, ← machine_write_holds hh] at hw2
  refine ⟨group conserve sites, _, _, _, text', sortAndGroup_stores h.holds.stores conserve, hr, hh, ?_, hw2, ?_⟩
  · rw [List.forall₂_map_right_iff, List.forall₂_same]
    intro s hs
    have hs' := hmem s hs
    refine ⟨(machine_alike prec direct c s).specie, rfl, sameVecM_back (h.vectors s hs' _ (.inl rfl)) (fun hd => h.close hd s hs' _ (.inl rfl)), ?_, ?_, rfl⟩
    · show (match s.velocities, s.velocities.map (A.back N prec direct c) with | some v, some v' => _ | none, none => True | _, _ => False)
      cases hv : s.velocities with
      | none => trivial
      | some v => exact sameVecM_back (h.vectors s hs' v (.inr hv)) (fun hd => h.close hd s hs' v (.inr hv))
    · show (match s.predictors, s.predictors.map (fun v => floatV N (roundV prec v)) with | some v, some v' => _ | none, none => True | _, _ => False)
      cases hv : s.predictors with
      | none => trivial
      | some v => exact within_float (h.predictors s hs' v hv)
  · intro string
    have hsp : ∀ k ∈ (group conserve sites).species, Token (capitalize k) := by
      intro k hk
      obtain ⟨s, hs, rfl⟩ := species_mem hg hk
      rw [capitalize_getSpecie]
      exact (h.printable.names s (hmem s hs)).1
    have hhash : '#' ∉ compound (group conserve sites).species (group conserve sites).nums := by
      apply compound_no_hash
      intro k hk
      obtain ⟨s, hs, rfl⟩ := species_mem hg hk
      rw [capitalize_getSpecie]
      exact h.noHash s (hmem s hs)
    have hpr : Printable (some (readBack (headline (compound (group conserve sites).species (group conserve sites).nums) (commentVal cm))))
        ((group conserve sites).sites.map (A.reread N prec direct c)) := by
      refine ⟨?_, ?_⟩
      · intro s hs
        cases hs
        have hb := headline_noBreak (nums := (group conserve sites).nums) hsp h.printable.comment
        intro ch hch
        unfold readBack at hch
        exact hb ch (List.mem_filter.1 (mem_of_mem_strip hch)).1
      · intro s hs
        obtain ⟨t, ht, rfl⟩ := List.mem_map.1 hs
        rw [(machine_alike prec direct c t).specie]
        exact h.printable.names t (hmem t ht)
    have hheld : Held A N prec direct (floatM N (roundM prec c)) ((group conserve sites).sites.map (A.reread N prec direct c)) := by
      refine ⟨⟨memV_float h.cell.row1, memV_float h.cell.row2, memV_float h.cell.row3⟩, ?_, ?_⟩
      · intro s hs
        obtain ⟨t, ht, rfl⟩ := List.mem_map.1 hs
        exact (round_shown_back (h.vectors t (hmem t ht) _ (.inl rfl)) (fun hd => h.close hd t (hmem t ht) _ (.inl rfl))).2
      · intro hd
        rw [roundM_near_round h.cell]
        exact h.inv hd
    have hr2 := machine_write_read hA hh hpr hheld hw2 string
    rw [hr2, hgr]
    simp only
    rw [roundM_near_round h.cell]
    obtain ⟨g1, g2, g3⟩ := readBack_spec (compound_stripped (group conserve sites).species (group conserve sites).nums)
      (compound_ne (group conserve sites).species (group conserve sites).nums) hhash cm
    rw [(headline_fix g1 g2 g3).2, List.map_map]
    congr 3
    apply List.map_congr_left
    intro s hs
    exact reread_reread h (hmem s hs)

/-- C112: how accurate is enough. Scalar products have the errors `γ` and `τ` (`DotOk`; for binary64 see C111), numbers are read with relative error
`u` and absolute error `t`, the inverse of the cell has the residual `η`; the printed coordinates are at most `b`, the numbers of the cell at most `k`
and those of its inverse at most `y`. If the stated sum of errors is below half a unit of the last printed digit, the machine is accurate enough. -/
theorem C112_accurate {γ τ : Rat} (hd : DotOk A N γ τ) (u t b k y η : Rat) (hN : Rounding N u t) (prec : Nat) (c' Y : Cell) (x : Vec) (mx : MemV N x)
    (hx : AtMost b (roundV prec x)) (mc : MemM N c') (hc : AtMostM k c') (hi : Inverted A N η y c' Y)
    (f1 : 3 * (b + (u * b + t)) * y ≤ N.big / 2)
    (f2 : 3 * (3 * (b + (u * b + t)) * y + dotErr γ τ (b + (u * b + t)) y) * k ≤ N.big / 2)
    (hsmall : (3 * (b + (u * b + t)) * η + 3 * dotErr γ τ (b + (u * b + t)) y * k +
      dotErr γ τ (3 * (b + (u * b + t)) * y + dotErr γ τ (b + (u * b + t)) y) k) + (u * b + t) < 1 / (2 * 10 ^ prec)) :
    Close A N prec c' x := by
  have hread : Within (u * b + t) (floatV N (roundV prec x)) (roundV prec x) := by
    have key : ∀ {z : Rat}, N.mem z → |roundDec prec z| ≤ b → |N.near (roundDec prec z) - roundDec prec z| ≤ u * b + t := fun {z} hz hb => by
      have := hN.close _ (N.roundDec_bound (p := prec) hz)
      have := mul_le_mul_of_nonneg_left hb hN.u_nonneg
      linarith
    exact ⟨key mx.x hx.x, key mx.y hx.y, key mx.z hx.z⟩
  have hv : AtMost (b + (u * b + t)) (floatV N (roundV prec x)) := hread.atMost hx
  have hmem := memV_float (prec := prec) mx
  have h0 := hd.vecMul hmem hi.mem hv hi.bound f1
  have hw : AtMost (3 * (b + (u * b + t)) * y + dotErr γ τ (b + (u * b + t)) y) (A.vecMul (floatV N (roundV prec x)) Y) :=
    h0.2.atMost (atMost_mul hv hi.bound)
  have h1 := hd.vecMul h0.1 mc hw hc f2
  obtain ⟨w, hw1, hw2⟩ := C111_cart_dir_cart hd (b + (u * b + t)) k y η (floatV N (roundV prec x)) c' Y hmem mc hv hc hi f1 f2
  have e : w = A.vecMul (floatV N (roundV prec x)) Y := by
    unfold Arith.toDir at hw1
    rw [hi.returns] at hw1
    exact (Option.some.inj hw1).symm
  have h2 := (hw2.trans hread)
  exact ⟨w, hw1, by rw [e]; exact h1.1, lt_of_le_of_lt h2.x hsmall, lt_of_le_of_lt h2.y hsmall, lt_of_le_of_lt h2.z hsmall⟩

/-! ### the hypotheses -/

/-- A site in a cubic cell of length 3. -/
def cubeSite : Site := Site.new c!"Si" ⟨1/2, 1/4, 0⟩ (true, true, true) none none true

/-- Its cell. -/
def cubeCell : Cell := ⟨⟨3, 0, 0⟩, ⟨0, 3, 0⟩, ⟨0, 0, 3⟩⟩

/-- An object holding it. -/
def cubeEntries : Entries := [(c!"comment", .none), (c!"unitcell", .cell (some cubeCell)), (c!"sites", .sites [.site cubeSite])]

theorem ieee_one (N : Floats) (inv : Cell → Option Cell) (h1 : N.mem 1) : OneOk (Arith.ieee N inv) N := by
  refine ⟨rfl, h1, ?_, ?_⟩
  · intro x hx
    show N.near (x * 1) = x
    rw [mul_one, near_of_mem hx]
  · intro x hx
    show N.near (1 * x) = x
    rw [one_mul, near_of_mem hx]

theorem ieee_dot (N : Floats) (inv : Cell → Option Cell) (v w : Vec) (r : Rat) (hr : v.x * w.x + v.y * w.y + v.z * w.z = r) (ha : N.mem (v.x * w.x))
    (hb : N.mem (v.y * w.y)) (hc : N.mem (v.z * w.z)) (hab : N.mem (v.x * w.x + v.y * w.y)) (hm : N.mem r) : (Arith.ieee N inv).dot v w = r := by
  show N.near (N.near (N.near (v.x * w.x) + N.near (v.y * w.y)) + N.near (v.z * w.z)) = r
  rw [near_of_mem ha, near_of_mem hb, near_of_mem hc, near_of_mem hab, hr, near_of_mem hm]

theorem cube_one : OneOk cubeArith Floats.binary64 :=
  ieee_one _ _ ((Floats.binary64_mem _).2 ⟨1, 0, by norm_num, by norm_num, by norm_num, by norm_num⟩)

theorem binary64_dyadic (x : Rat) (m j : Int) (hm : m.natAbs < 2 ^ 53) (h1 : -1074 ≤ j) (h2 : j ≤ 971) (he : x = m * (2 : Rat) ^ j) : Floats.binary64.mem x :=
  (Floats.binary64_mem _).2 ⟨m, j, hm, h1, h2, he⟩

/-- The hypotheses of C112 are met by a structure written in cartesian coordinates with binary64 arithmetic and 12 decimals, in a cell whose inverse is
no machine matrix. -/
theorem cube_ranges : Ranges cubeArith Floats.binary64 12 false cubeEntries none cubeCell [cubeSite] ∧
    ∃ text, cubeArith.write 12 false false cubeEntries = .ok text := by
  have z : Floats.binary64.mem 0 := Floats.binary64.zero_mem
  have m3 : Floats.binary64.mem 3 := binary64_dyadic _ 3 0 (by norm_num) (by norm_num) (by norm_num) (by norm_num)
  have m32 : Floats.binary64.mem (3/2) := binary64_dyadic _ 3 (-1) (by norm_num) (by norm_num) (by norm_num) (by norm_num)
  have m34 : Floats.binary64.mem (3/4) := binary64_dyadic _ 3 (-2) (by norm_num) (by norm_num) (by norm_num) (by norm_num)
  have hcell : MemM Floats.binary64 cubeCell := ⟨⟨m3, z, z⟩, ⟨z, m3, z⟩, ⟨z, z, m3⟩⟩
  have hcart : cubeArith.toCart ⟨1/2, 1/4, 0⟩ cubeCell = ⟨3/2, 3/4, 0⟩ := by
    unfold Arith.toCart Arith.vecMul cubeArith
    rw [ieee_dot _ _ _ _ (3/2) (by norm_num [cubeCell, M3.transpose]) (by norm_num [cubeCell, M3.transpose]; exact m32) (by norm_num [cubeCell, M3.transpose]; exact z)
        (by norm_num [cubeCell, M3.transpose]; exact z) (by norm_num [cubeCell, M3.transpose]; exact m32) m32,
      ieee_dot _ _ _ _ (3/4) (by norm_num [cubeCell, M3.transpose]) (by norm_num [cubeCell, M3.transpose]; exact z) (by norm_num [cubeCell, M3.transpose]; exact m34)
        (by norm_num [cubeCell, M3.transpose]; exact z) (by norm_num [cubeCell, M3.transpose]; exact m34) m34,
      ieee_dot _ _ _ _ 0 (by norm_num [cubeCell, M3.transpose]) (by norm_num [cubeCell, M3.transpose]; exact z) (by norm_num [cubeCell, M3.transpose]; exact z)
        (by norm_num [cubeCell, M3.transpose]; exact z) (by norm_num [cubeCell, M3.transpose]; exact z) z]
  have hround : roundM 12 cubeCell = cubeCell := by decide +kernel
  have hfloat : floatM Floats.binary64 (roundM 12 cubeCell) = cubeCell := by
    rw [hround]
    simp only [floatM, floatV, cubeCell, near_of_mem z, near_of_mem m3]
  have hinv : cubeArith.inv cubeCell = some ⟨⟨third, 0, 0⟩, ⟨0, third, 0⟩, ⟨0, 0, third⟩⟩ := rfl
  have t : Floats.binary64.mem third := binary64_dyadic _ 6004799503160661 (-54) (by norm_num) (by norm_num) (by norm_num) (by unfold third; norm_num)
  have hmemv : ∀ v, IsVec cubeSite v → MemV Floats.binary64 (cubeArith.toCart v cubeCell) ∧ cubeArith.toCart v cubeCell = ⟨3/2, 3/4, 0⟩ := by
    intro v hv
    rcases hv with rfl | hv
    · show MemV _ (cubeArith.toCart ⟨1/2, 1/4, 0⟩ cubeCell) ∧ cubeArith.toCart ⟨1/2, 1/4, 0⟩ cubeCell = _
      rw [hcart]; exact ⟨⟨m32, m34, z⟩, rfl⟩
    · cases hv
  have hbig : (10 : Rat) ^ 6 ≤ Floats.binary64.big / 2 := by
    have : (2 * 10 ^ 6 : Nat) ≤ (2 ^ 53 - 1) * 2 ^ 971 := by decide +kernel
    have hb : Floats.binary64.big = (2 ^ 53 - 1) * 2 ^ 971 := rfl
    have h2 : ((2 * 10 ^ 6 : Nat) : Rat) ≤ Floats.binary64.big := by rw [hb]; exact_mod_cast this
    generalize (Floats.binary64.big : Rat) = B at h2
    push_cast at h2
    linarith
  refine ⟨⟨⟨rfl, rfl, rfl, ?_⟩, ⟨?_, ?_⟩, ?_, hcell, ?_, ?_, ?_, ?_⟩, ?_⟩
  · intro s hs; rw [List.mem_singleton] at hs; subst hs; rfl
  · intro s hs; cases hs
  · intro s hs
    rw [List.mem_singleton] at hs; subst hs
    decide +kernel
  · intro s hs; rw [List.mem_singleton] at hs; subst hs; decide
  · intro s hs v hv
    rw [List.mem_singleton] at hs; subst hs
    exact (hmemv v hv).1
  · intro s hs v hv
    rw [List.mem_singleton] at hs; subst hs
    cases hv
  · intro _
    rw [hfloat]
    exact ⟨_, hinv⟩
  · intro _ s hs v hv
    rw [List.mem_singleton] at hs; subst hs
    rw [hfloat, (hmemv v hv).2]
    refine C112_accurate (C111_dot _ _ _ C111_binary64 _) (1 / 2 ^ 53) (1 / 2 ^ 1075) 2 3 (1/2) (1 / 2 ^ 54) C111_binary64 12 cubeCell
      ⟨⟨third, 0, 0⟩, ⟨0, third, 0⟩, ⟨0, 0, third⟩⟩ _ ⟨m32, m34, z⟩ ?_ hcell ?_ ⟨rfl, ⟨⟨t, z, z⟩, ⟨z, t, z⟩, ⟨z, z, t⟩⟩, ?_, ?_, ?_⟩ ?_ ?_ ?_
    · constructor <;> decide +kernel
    · constructor <;> constructor <;> decide +kernel
    · constructor <;> constructor <;> decide +kernel
    · constructor <;> constructor <;> decide +kernel
    · constructor <;> constructor <;> decide +kernel
    · refine le_trans ?_ hbig; decide +kernel
    · refine le_trans ?_ hbig; decide +kernel
    · decide +kernel
  · exact ⟨_, rfl⟩

/-- The same structure without rounding: the theorem is about the model of the other modules too. -/
example (prec : Nat) (conserve direct : Bool) (e : Entries) : Arith.exact.write prec conserve direct e = write prec conserve direct e := exact_write _ _ _ _

end Verif.Poscar
