import Verif.Lemmas.Kpoints
/-! # KPOINTS round trips (C21, C22, C23) -/
set_option autoImplicit false
namespace Verif.Kpoints
open Verif

/-! ### what an object holds -/

/-- The entries of `e` are: comment `cm` (`none`: `None`) and the other nine as given by `p`. -/
structure Holds (e : Entries) (cm : Option Str) (p : Parsed) : Prop where
  comment : e.get? c!"comment" = some (optVal .str cm)
  divisions : e.get? c!"divisions" = some (optVal (atomsVal .int) p.divisions)
  vectors : e.get? c!"generating_vectors" = some (optVal (rowsVal .float) p.vectors)
  shifts : e.get? c!"shifts" = some (optVal (atomsVal .float) p.shifts)
  points : e.get? c!"points" = some (optVal (atomsVal .point) p.points)
  tetra : e.get? c!"tetra" = some (optVal (rowsVal .int) p.tetra)
  volume : e.get? c!"tetra_volume" = some (optVal .float p.tetraVol)
  mode : e.get? c!"mode" = some (.str p.mode)
  centering : e.get? c!"centering" = some (optVal .str p.centering)
  num : e.get? c!"num_kpoints" = some (.int p.num)

theorem holds_toEntries (p : Parsed) : Holds p.toEntries (some p.comment) p := by
  constructor <;> rfl

/-- Specification of the typing rules: something to sample, five-membered tetrahedra, known centering and mode. -/
structure Sound (p : Parsed) : Prop where
  nonempty : p.divisions ≠ none ∨ p.points ≠ none ∨ p.vectors ≠ none
  tetra : ∀ rows, p.tetra = some rows → ∀ r ∈ rows, r.length = 5
  centering : ∀ c, p.centering = some c → c = c!"Gamma" ∨ c = c!"Monkhorst-Pack" ∨ c = c!"Reciprocal"
  mode : p.mode = c!"explicit" ∨ p.mode = c!"automatic" ∨ p.mode = c!"line"

theorem optVal_none_iff {α} (f : α → Val) (hf : ∀ a, f a ≠ .none) (o : Option α) : optVal f o = .none ↔ o = none := by
  cases o with
  | none => simp [optVal]
  | some a => simp [optVal, hf a]

theorem argOr_none {e : Entries} {k : Str} {v : Val} (h : e.get? k = some v) : argOr e k .none = .ok v := by
  simp [argOr, h]

theorem validate_holds {e : Entries} {cm : Option Str} {p : Parsed} (h : Holds e cm p) (hs : Sound p) : validate e = .ok () := by
  have h1 : checkDict e = .ok () := by
    unfold checkDict lookup
    rw [h.divisions, h.points, h.vectors]
    rcases hs.nonempty with h' | h' | h' <;> cases h1 : p.divisions <;> cases h2 : p.points <;> cases h3 : p.vectors <;>
      simp_all [optVal, atomsVal, rowsVal]
  have h2 : checkComment e .none = .ok () := by
    unfold checkComment lookup
    rw [argOr_none h.comment, h.comment]
    cases cm <;> simp [optVal]
  have h3 : checkPoints e .none = .ok () := by
    unfold checkPoints
    rw [argOr_none h.points]
    cases p.points <;> rfl
  have h4 : checkCentering e .none = .ok () := by
    unfold checkCentering
    rw [argOr_none h.centering]
    cases hc : p.centering with
    | none => rfl
    | some c =>
      simp only [optVal, Res.ok_bind]
      rw [if_pos]
      rcases hs.centering c hc with h | h | h <;> simp [h]
  have h5 : checkDivisions e .none = .ok () := by
    unfold checkDivisions
    rw [argOr_none h.divisions]
    cases p.divisions with
    | none => rfl
    | some l => simp [optVal, atomsVal, isInt]
  have h6 : checkVectors e .none = .ok () := by
    unfold checkVectors
    rw [argOr_none h.vectors]
    cases p.vectors with
    | none => rfl
    | some l => simp [optVal, rowsVal, isFloatRow]
  have h7 : checkShifts e .none = .ok () := by
    unfold checkShifts
    rw [argOr_none h.shifts]
    cases p.shifts with
    | none => rfl
    | some l => simp [optVal, atomsVal, isFloat]
  have h8 : checkMode e .none = .ok () := by
    unfold checkMode
    rw [argOr_none h.mode]
    simp only [Res.ok_bind]
    rw [if_pos]
    rcases hs.mode with h | h | h <;> simp [h]
  have h9 : checkNum e .none = .ok () := by
    unfold checkNum
    rw [argOr_none h.num]; rfl
  have h10 : checkTetra e .none = .ok () := by
    unfold checkTetra
    rw [argOr_none h.tetra]
    cases hc : p.tetra with
    | none => rfl
    | some rows =>
      have hr := hs.tetra rows hc
      simp only [optVal, rowsVal, Res.ok_bind]
      have : ∃ us, Res.mapM' checkTetraElem (rows.map fun r => Elem.list (r.map Atom.int)) = .ok us := by
        clear hc
        induction rows with
        | nil => exact ⟨[], rfl⟩
        | cons r rs ih =>
          obtain ⟨us, hus⟩ := ih (fun x hx => hr x (by simp [hx]))
          have : checkTetraElem (Elem.list (r.map Atom.int)) = .ok () := by
            simp [checkTetraElem, hr r (by simp)]
          exact ⟨() :: us, by simp [Res.mapM', this, hus]⟩
      obtain ⟨us, hus⟩ := this
      rw [hus]; rfl
  have h11 : checkTetraVolume e .none = .ok () := by
    unfold checkTetraVolume
    rw [argOr_none h.volume]
    cases p.tetraVol <;> rfl
  simp [validate, h1, h2, h3, h4, h5, h6, h7, h8, h9, h10, h11]

/-- A comment that one line can hold: no line breaks, no `#`, no blanks at its ends. -/
def OkComment (cm : Option Str) : Prop := ∀ s, cm = some s → Stripped s ∧ '#' ∉ s ∧ Free isLineBreak s

/-- The comment that is written. -/
def shownComment (cm : Option Str) : Str := cm.getD c!"No comment"

theorem okComment_shown {cm : Option Str} (h : OkComment cm) :
    Stripped (shownComment cm) ∧ '#' ∉ shownComment cm ∧ Free isLineBreak (shownComment cm) := by
  cases cm with
  | some s => exact h s rfl
  | none => exact ⟨by unfold Stripped; decide, by decide, by unfold Free; decide⟩

theorem read_comment {cm : Option Str} (h : OkComment cm) {suf : Str} (hs : Eol suf) :
    strip ((c!"# " ++ shownComment cm ++ suf).filter (· != '#')) = shownComment cm := by
  obtain ⟨h1, h2, _⟩ := okComment_shown h
  have hf : (shownComment cm).filter (· != '#') = shownComment cm := by
    rw [List.filter_eq_self]; intro c hc; simp; rintro rfl; exact h2 hc
  have hf2 : suf.filter (· != '#') = suf := by
    rcases hs with rfl | rfl <;> rfl
  rw [List.filter_append, List.filter_append, hf, hf2]
  exact strip_pad [' '] suf h1 (by simp; decide) hs.space

/-- The three ways to hand a text to the constructor. -/
def FromText (text : Str) (s : Sources) : Prop :=
  s = { string := some text } ∨ s = { path := some (some text) } ∨ s = { handler := some text }

theorem init_fromText {ls : List Str} (hls : ∀ l ∈ ls, Free isLineBreak l) {p : Parsed} (hp : Sound p)
    (h : ∀ suf, Eol suf → parse (ls.map (· ++ suf)) = .ok p) {s : Sources} (hs : FromText (unlines ls) s) :
    ∃ e, init s = .ok e ∧ Holds e (some p.comment) p := by
  obtain ⟨h1, h2⟩ := read_unlines ls hls
  refine ⟨p.toEntries, ?_, holds_toEntries p⟩
  have hv := validate_holds (holds_toEntries p) hp
  have e1 : fromList (readlines (unlines ls)) = .ok p.toEntries := by
    unfold fromList; rw [h1, h _ (.inr rfl)]; rfl
  have e2 : fromList (splitlines (unlines ls)) = .ok p.toEntries := by
    unfold fromList; rw [h2, h _ (.inl rfl)]; rfl
  rcases hs with rfl | rfl | rfl
  · simp [init, guards, load, e2, hv]
  · simp [init, guards, load, fromFile, e1, hv]
  · simp [init, guards, load, fromFile, e1, hv]

/-! ### C21 -/

/-- A point with its numbers rounded to `prec` decimals; a missing weight becomes 1. -/
def Kpoint.rounded (prec : Nat) (p : Kpoint) : Kpoint :=
  ⟨p.coord.map (roundDec prec), some (roundDec prec (p.weight.getD 1)), true⟩

theorem coord3 {l : List Rat} (h : l.length = 3) : ∃ x y z, l = [x, y, z] := by
  match l, h with
  | [x, y, z], _ => exact ⟨x, y, z, rfl⟩

theorem three_of_length {α} {l : List α} (h : l.length = 3) : three l = .ok l := by
  match l, h with
  | [x, y, z], _ => rfl

theorem parsePoint_line (prec : Nat) (p : Kpoint) (h : p.coord.length = 3) {suf : Str} (hs : Eol suf) :
    parsePoint (floatLine prec (p.coord ++ [p.weight.getD 1]) ++ suf) = .ok (p.rounded prec) := by
  obtain ⟨x, y, z, hc⟩ := coord3 h
  unfold parsePoint
  rw [hs.words, words_floatLine, hc]
  simp [idx, toFloat_fmt, Kpoint.rounded, hc]

theorem mapM'_ok_map {α β} (f : α → Res β) (g : α → β) (l : List α) (h : ∀ a ∈ l, f a = .ok (g a)) :
    Res.mapM' f l = .ok (l.map g) := by
  induction l with
  | nil => rfl
  | cons a as ih => simp [Res.mapM', h a (by simp), ih (fun x hx => h x (by simp [hx]))]

/-- The lines of the tetrahedra. -/
def tetraLines (prec : Nat) : Option (List (List Int) × Rat) → List Str
  | some (rows, vol) => c!"Tetrahedra" :: (fmtInt 6 rows.length ++ [' '] ++ fmtFixed (prec + 4) prec vol) :: rows.map (intLine 6)
  | none => []

theorem words_head_tetra (prec n : Nat) (vol : Rat) :
    words (fmtInt 6 n ++ [' '] ++ fmtFixed (prec + 4) prec vol) = [intStr n, fmtFixedRaw prec vol] := by
  rw [List.append_assoc, List.singleton_append, words_sep _ _ _ (by decide), words_fmtInt, words_fmtFixed]; rfl

theorem parseTetra_lines (prec : Nat) (tet : Option (List (List Int) × Rat)) (h5 : ∀ t, tet = some t → ∀ r ∈ t.1, r.length = 5)
    (pre : List Str) {suf : Str} (hs : Eol suf) :
    parseTetra (pre ++ (tetraLines prec tet).map (· ++ suf)) pre.length =
      .ok (tet.map Prod.fst, tet.map fun t => roundDec prec t.2) := by
  cases tet with
  | none => simp [tetraLines, parseTetra]
  | some t =>
    obtain ⟨rows, vol⟩ := t
    have h5' := h5 _ rfl
    unfold parseTetra tetraLines
    have hlen : ∀ (l : Str) (ls : List Str), pre.length < (pre ++ l :: ls).length := by intro l ls; simp
    simp only [List.map_cons]
    rw [if_pos (hlen _ _)]
    have hi0 : ∀ (l : Str) (ls : List Str), idx (pre ++ l :: ls) pre.length = .ok l := by
      intro l ls
      have := idx_append_right pre (l :: ls) 0
      rw [Nat.zero_add] at this; rw [this]; rfl
    have hi1 : ∀ (l l' : Str) (ls : List Str), idx (pre ++ l :: l' :: ls) (pre.length + 1) = .ok l' := by
      intro l l' ls
      have := idx_append_right pre (l :: l' :: ls) 1
      rw [Nat.add_comm] at this; rw [this]; rfl
    rw [hi0]
    simp only [Res.ok_bind]
    rw [hs.strip]
    have hT : idx (strip c!"Tetrahedra") 0 = .ok 'T' := by decide
    rw [hT]
    simp only [Res.ok_bind]
    rw [if_pos (by decide), if_pos (by simp), hi1]
    simp only [Res.ok_bind]
    rw [hs.words, words_head_tetra]
    have a0 : ∀ a b : Str, idx [a, b] 0 = .ok a := fun _ _ => rfl
    have a1 : ∀ a b : Str, idx [a, b] 1 = .ok b := fun _ _ => rfl
    rw [a0, a1]
    simp only [Res.ok_bind]
    rw [toInt_intStr, toFloat_fmt]
    simp only [Res.ok_bind]
    have hloop : Res.mapM' (fun t => idx (pre ++ (c!"Tetrahedra" ++ suf) :: (fmtInt 6 rows.length ++ [' '] ++ fmtFixed (prec + 4) prec vol ++ suf) ::
          (rows.map (intLine 6)).map (· ++ suf)) (t + (pre.length + 2)) >>= parseTetraLine) (List.range (rows.length : Int).toNat) = .ok rows := by
      have e : pre ++ (c!"Tetrahedra" ++ suf) :: (fmtInt 6 rows.length ++ [' '] ++ fmtFixed (prec + 4) prec vol ++ suf) ::
          (rows.map (intLine 6)).map (· ++ suf) =
          (pre ++ [c!"Tetrahedra" ++ suf, fmtInt 6 rows.length ++ [' '] ++ fmtFixed (prec + 4) prec vol ++ suf]) ++
            ((rows.map (intLine 6)).map (· ++ suf) ++ []) := by simp
      have hl : pre.length + 2 = (pre ++ [c!"Tetrahedra" ++ suf, fmtInt 6 rows.length ++ [' '] ++ fmtFixed (prec + 4) prec vol ++ suf]).length := by
        simp
      rw [e, hl]
      have hr : (rows.length : Int).toNat = ((rows.map (intLine 6)).map (· ++ suf)).length := by simp
      rw [hr, mapM'_range_idx, Verif.Incar.mapM'_map, Verif.Incar.mapM'_map]
      have := mapM'_ok_map (fun r => parseTetraLine (intLine 6 r ++ suf)) id rows (by
        intro r hr
        unfold parseTetraLine
        rw [hs.words, words_intLine, if_pos (by simpa using h5' r hr), mapM'_toInt]; rfl)
      simpa using this
    rw [hloop]
    rfl

/-- The lines of an explicit KPOINTS that announces `num` points. -/
def explicitLinesN (prec : Nat) (cm : Option Str) (num : Int) (pts : List Kpoint) (tet : Option (List (List Int) × Rat)) : List Str :=
  (c!"# " ++ shownComment cm) :: fmtInt 6 num :: c!"Direct" ::
    (pts.map (fun p => floatLine prec (p.coord ++ [p.weight.getD 1])) ++ tetraLines prec tet)

/-- The lines of an explicit KPOINTS. -/
def explicitLines (prec : Nat) (cm : Option Str) (pts : List Kpoint) (tet : Option (List (List Int) × Rat)) : List Str :=
  explicitLinesN prec cm pts.length pts tet

theorem parse_explicitLines (prec : Nat) (cm : Option Str) (pts : List Kpoint) (tet : Option (List (List Int) × Rat))
    (hcm : OkComment cm) (hpts : ∀ p ∈ pts, p.coord.length = 3) (hne : pts ≠ [])
    (h5 : ∀ t, tet = some t → ∀ r ∈ t.1, r.length = 5) {suf : Str} (hs : Eol suf) :
    parse ((explicitLines prec cm pts tet).map (· ++ suf)) =
      .ok { comment := shownComment cm, num := pts.length, mode := c!"explicit"
            points := some (pts.map (Kpoint.rounded prec)), tetra := tet.map Prod.fst
            tetraVol := tet.map fun t => roundDec prec t.2 } := by
  unfold parse explicitLines explicitLinesN
  have i0 : ∀ (a : Str) (l : List Str), idx (a :: l) 0 = .ok a := fun _ _ => rfl
  have i1 : ∀ (a b : Str) (l : List Str), idx (a :: b :: l) 1 = .ok b := fun _ _ _ => rfl
  have i2 : ∀ (a b c : Str) (l : List Str), idx (a :: b :: c :: l) 2 = .ok c := fun _ _ _ _ => rfl
  simp only [List.map_cons]
  rw [i0, i1, i2]
  simp only [Res.ok_bind]
  rw [hs.words, words_fmtInt, i0]
  simp only [Res.ok_bind]
  rw [toInt_intStr, hs.strip]
  have hD : idx (strip c!"Direct") 0 = .ok 'D' := by decide
  rw [hD]
  simp only [Res.ok_bind]
  have hpos : ¬ ((pts.length : Int) ≤ 0) := by
    have : 0 < pts.length := List.length_pos_iff.2 hne
    omega
  have hl : ¬ (lowerC 'D' = 'l') := by decide
  simp only [hpos, hl, decide_false, Bool.not_false, Bool.and_self, if_true, Bool.false_eq_true, if_false]
  rw [read_comment hcm hs]
  unfold parseExplicit
  rw [if_neg (by decide)]
  dsimp only
  have hloop : Res.mapM' (fun k => idx ((c!"# " ++ shownComment cm ++ suf) :: (fmtInt 6 pts.length ++ suf) :: (c!"Direct" ++ suf) ::
        (pts.map (fun p => floatLine prec (p.coord ++ [p.weight.getD 1])) ++ tetraLines prec tet).map (· ++ suf)) (k + 3) >>= parsePoint)
      (List.range (pts.length : Int).toNat) = .ok (pts.map (Kpoint.rounded prec)) := by
    have := mapM'_range_idx parsePoint ((pts.map (fun p => floatLine prec (p.coord ++ [p.weight.getD 1]))).map (· ++ suf))
      ((tetraLines prec tet).map (· ++ suf)) [c!"# " ++ shownComment cm ++ suf, fmtInt 6 pts.length ++ suf, c!"Direct" ++ suf]
    simp only [List.length_cons, List.length_nil, List.length_map, Nat.zero_add, List.cons_append, List.nil_append] at this
    rw [List.map_append, Int.toNat_natCast]
    refine this.trans ?_
    rw [Verif.Incar.mapM'_map, Verif.Incar.mapM'_map]
    exact mapM'_ok_map _ _ pts (fun p hp => parsePoint_line prec p (hpts p hp) hs)
  rw [hloop]
  simp only [Res.ok_bind]
  have htet := parseTetra_lines prec tet h5 ([c!"# " ++ shownComment cm ++ suf, fmtInt 6 pts.length ++ suf, c!"Direct" ++ suf] ++
    (pts.map (fun p => floatLine prec (p.coord ++ [p.weight.getD 1]))).map (· ++ suf)) hs
  have e1 : ([c!"# " ++ shownComment cm ++ suf, fmtInt 6 pts.length ++ suf, c!"Direct" ++ suf] ++
      (pts.map (fun p => floatLine prec (p.coord ++ [p.weight.getD 1]))).map (· ++ suf)).length = (pts.length : Int).toNat + 3 := by
    simp
  rw [e1] at htet
  rw [List.map_append]
  simp only [List.cons_append, List.nil_append] at htet ⊢
  rw [htet]
  rfl

theorem unlines_flatten (ls : List Str) : (ls.map (· ++ ['\n'])).flatten = unlines ls := by
  unfold unlines; rw [List.flatMap_def]

theorem write_explicitN (prec : Nat) (e : Entries) (cm : Option Str) (p : Parsed) (pts : List Kpoint)
    (tet : Option (List (List Int) × Rat)) (hh : Holds e cm p) (hs : Sound p) (hm : p.mode = c!"explicit")
    (hp : p.points = some pts) (ht : p.tetra = tet.map Prod.fst) (hv : p.tetraVol = tet.map Prod.snd)
    (hpts : ∀ p ∈ pts, p.coord.length = 3) :
    write prec e = .ok (unlines (explicitLinesN prec cm p.num pts tet)) := by
  have h1 := hh.comment; have h2 := hh.mode; have h3 := hh.num; have h4 := hh.points; have h5 := hh.tetra; have h6 := hh.volume
  rw [hm] at h2; rw [hp] at h4; rw [ht] at h5; rw [hv] at h6
  have hpl : Res.mapM' (writePoint prec) (pts.map fun a => Elem.atom (Atom.point a)) =
      .ok (pts.map fun p => floatLine prec (p.coord ++ [p.weight.getD 1]) ++ ['\n']) := by
    rw [Verif.Incar.mapM'_map]
    apply mapM'_ok_map
    intro q hq
    simp only [writePoint, three_of_length (hpts q hq), Res.ok_bind]
    rfl
  have htet : writeTetra prec (optVal (rowsVal .int) (tet.map Prod.fst)) (optVal .float (tet.map Prod.snd)) =
      .ok (unlines (tetraLines prec tet)) := by
    cases tet with
    | none => rfl
    | some t =>
      obtain ⟨rows, vol⟩ := t
      have hrows : Res.mapM' (fun r => tetraInts r >>= fun is => .ok (intRow 6 is)) (rows.map fun r => Elem.list (r.map Atom.int)) =
          .ok (rows.map fun r => intLine 6 r ++ ['\n']) := by
        rw [Verif.Incar.mapM'_map]
        apply mapM'_ok_map
        intro r _
        have : tetraInts (Elem.list (r.map Atom.int)) = .ok r := by
          unfold tetraInts
          dsimp only
          rw [Verif.Incar.mapM'_map]
          have := mapM'_ok_map (fun i => (Res.ok i : Res Int)) id r (fun _ _ => rfl)
          simpa using this
        rw [this]; rfl
      simp only [Option.map_some, optVal, rowsVal, writeTetra, hrows, Res.ok_bind, List.length_map]
      congr 1
      rw [tetraLines, unlines_cons, unlines_cons, ← unlines_flatten, List.map_map]
      simp [Function.comp_def]
  unfold write
  rw [validate_holds hh hs]
  simp only [Res.ok_bind, lookup, h1, h2, h3, if_true, writeExplicit, h4, h5, h6, optVal, atomsVal, overPoints, hpl]
  have htet' := htet
  simp only [optVal] at htet'
  rw [htet']
  simp only [Res.ok_bind]
  congr 1
  unfold explicitLinesN
  rw [unlines_cons, unlines_cons, unlines_cons, unlines_append, ← unlines_flatten (pts.map _), List.map_map]
  cases cm <;> simp [shownComment, Function.comp_def]

theorem write_explicit (prec : Nat) (e : Entries) (cm : Option Str) (p : Parsed) (pts : List Kpoint)
    (tet : Option (List (List Int) × Rat)) (hh : Holds e cm p) (hs : Sound p) (hm : p.mode = c!"explicit")
    (hp : p.points = some pts) (hn : p.num = pts.length) (ht : p.tetra = tet.map Prod.fst) (hv : p.tetraVol = tet.map Prod.snd)
    (hpts : ∀ p ∈ pts, p.coord.length = 3) :
    write prec e = .ok (unlines (explicitLines prec cm pts tet)) := by
  rw [write_explicitN prec e cm p pts tet hh hs hm hp ht hv hpts, hn]; rfl

/-- C21. An explicit KPOINTS (as many points as announced, at least one; points of three coordinates) is written, and the text,
given as string, file or handler, is read back as the same points, weights (`None` becomes 1), tetrahedra and volume, the
numbers rounded to `prec` decimals; the comment survives too (`None` becomes `No comment`). -/
theorem C21_explicit_round_trip (prec : Nat) (e : Entries) (cm : Option Str) (p : Parsed) (pts : List Kpoint)
    (tet : Option (List (List Int) × Rat)) (hh : Holds e cm p) (hs : Sound p) (hm : p.mode = c!"explicit")
    (hp : p.points = some pts) (hn : p.num = pts.length) (hne : pts ≠ []) (ht : p.tetra = tet.map Prod.fst)
    (hv : p.tetraVol = tet.map Prod.snd) (hpts : ∀ p ∈ pts, p.coord.length = 3) (hcm : OkComment cm) :
    ∃ text, write prec e = .ok text ∧ ∀ s, FromText text s → ∃ e', init s = .ok e' ∧
      Holds e' (some (shownComment cm))
        { comment := shownComment cm, num := pts.length, mode := c!"explicit"
          points := some (pts.map fun k => ⟨k.coord.map (roundDec prec), some (roundDec prec (k.weight.getD 1)), true⟩)
          tetra := tet.map Prod.fst, tetraVol := tet.map fun t => roundDec prec t.2 } := by
  refine ⟨_, write_explicit prec e cm p pts tet hh hs hm hp hn ht hv hpts, ?_⟩
  intro s hs'
  have h5 : ∀ t, tet = some t → ∀ r ∈ t.1, r.length = 5 := by
    rintro t rfl; exact hs.tetra t.1 (by rw [ht]; rfl)
  refine init_fromText ?_ ?_ (fun suf hsuf => parse_explicitLines prec cm pts tet hcm hpts hne h5 hsuf) hs'
  · intro l hl
    unfold explicitLines explicitLinesN at hl
    simp only [List.mem_cons, List.mem_append, List.mem_map] at hl
    rcases hl with rfl | rfl | rfl | ⟨q, _, rfl⟩ | hl
    · exact Free.append_iff.2 ⟨by unfold Free; decide, (okComment_shown hcm).2.2⟩
    · exact fmtInt_noBreak 6 _
    · unfold Free; decide
    · exact floatLine_noBreak prec _
    · cases tet with
      | none => cases hl
      | some t =>
        simp only [tetraLines, List.mem_cons, List.mem_map] at hl
        rcases hl with rfl | rfl | ⟨r, _, rfl⟩
        · unfold Free; decide
        · refine Free.append_iff.2 ⟨Free.append_iff.2 ⟨fmtInt_noBreak 6 _, by unfold Free; decide⟩, ?_⟩
          exact free_padLeft (by decide) _ (NumChars.noBreak (fmtFixedRaw_numChars prec t.2))
        · exact intLine_noBreak 6 r
  · refine ⟨.inr (.inl (by simp)), ?_, by simp, .inl rfl⟩
    intro rows hr
    cases tet with
    | none => simp at hr
    | some t => simp at hr; subst hr; exact h5 t rfl

/-- Non-vacuity of C21: two points (one without weight), a tetrahedron, no comment. -/
def exampleExplicit : Parsed :=
  { comment := [], num := 2, mode := c!"explicit"
    points := some [⟨[0, 1/3, -1/2], none, true⟩, ⟨[1/4, 2/3, 0], some 2, true⟩]
    tetra := some [[1, 1, 2, 2, 2]], tetraVol := some (1/7) }

example : ∃ e, Holds e none exampleExplicit ∧ Sound exampleExplicit ∧ OkComment none ∧
    exampleExplicit.tetra = (some ([[1, 1, 2, 2, 2]], (1/7 : Rat))).map Prod.fst ∧
    exampleExplicit.tetraVol = (some ([[(1 : Int), 1, 2, 2, 2]], (1/7 : Rat))).map Prod.snd := by
  refine ⟨exampleExplicit.toEntries.set c!"comment" .none, ?_, ?_, ?_, rfl, rfl⟩
  · constructor <;> rfl
  · refine ⟨.inr (.inl (by simp [exampleExplicit])), ?_, by simp [exampleExplicit], .inl rfl⟩
    intro rows h r hr
    simp [exampleExplicit] at h
    subst h; simp at hr; subst hr; rfl
  · intro s h; cases h

/-! ### C22 -/

theorem roundDec_zero (prec : Nat) : roundDec prec 0 = 0 := by
  unfold roundDec; simp [scaledAbs, roundDiv]

/-- The lines of an automatic KPOINTS. -/
def autoLines (prec : Nat) (cm : Option Str) (cen : Str) (mid : List Str) (sh : List Rat) : List Str :=
  (c!"# " ++ shownComment cm) :: c!"0" :: cen :: (mid ++ [floatLine prec sh])

/-- `None` shifts are written as zeros. -/
def shownShifts (sh : Option (List Rat)) : List Rat := sh.getD [0, 0, 0]

theorem head_auto {cm : Option Str} (hcm : OkComment cm) {suf : Str} (hs : Eol suf) (c : Char) (cen : Str) (rest : List Str)
    (hc : idx (strip cen) 0 = .ok c) (hl : ¬ lowerC c = 'l') :
    parse ((c!"# " ++ shownComment cm ++ suf) :: (c!"0" ++ suf) :: (cen ++ suf) :: rest) =
    parseAutomatic ((c!"# " ++ shownComment cm ++ suf) :: (c!"0" ++ suf) :: (cen ++ suf) :: rest)
      { comment := shownComment cm, num := 0, mode := c!"automatic" } c := by
  unfold parse
  have i0 : ∀ (a : Str) (l : List Str), idx (a :: l) 0 = .ok a := fun _ _ => rfl
  have i1 : ∀ (a b : Str) (l : List Str), idx (a :: b :: l) 1 = .ok b := fun _ _ _ => rfl
  have i2 : ∀ (a b c : Str) (l : List Str), idx (a :: b :: c :: l) 2 = .ok c := fun _ _ _ _ => rfl
  rw [i0, i1, i2]
  simp only [Res.ok_bind]
  rw [hs.words]
  have hw : words c!"0" = [c!"0"] := by decide
  have hz : toInt c!"0" = .ok 0 := by decide
  rw [hw, i0]
  simp only [Res.ok_bind]
  rw [hz, hs.strip, hc]
  simp only [Res.ok_bind, hl, decide_false, Int.le_refl, decide_true, Bool.not_true, Bool.false_and, Bool.false_eq_true, if_false, if_true]
  rw [read_comment hcm hs]
  cases parseAutomatic ((c!"# " ++ shownComment cm ++ suf) :: (c!"0" ++ suf) :: (cen ++ suf) :: rest)
      { comment := shownComment cm, num := 0, mode := c!"automatic" } c <;> rfl

theorem parse_grid (prec : Nat) {cm : Option Str} (hcm : OkComment cm) {suf : Str} (hs : Eol suf) (cen : Str)
    (hcen : cen = c!"Gamma" ∨ cen = c!"Monkhorst-Pack") (div : List Int) (sh : List Rat) :
    parse ((autoLines prec cm cen [intLine (prec + 4) div] sh).map (· ++ suf)) =
      .ok { comment := shownComment cm, num := 0, mode := c!"automatic", centering := some cen
            divisions := some div, shifts := some (sh.map (roundDec prec)) } := by
  have i3 : ∀ (a b c d : Str) (l : List Str), idx (a :: b :: c :: d :: l) 3 = .ok d := fun _ _ _ _ _ => rfl
  have i4 : ∀ (a b c d e : Str) (l : List Str), idx (a :: b :: c :: d :: e :: l) 4 = .ok e := fun _ _ _ _ _ _ => rfl
  have i5 : ∀ a b c d e : Str, [a, b, c, d, e].length = 5 := fun _ _ _ _ _ => rfl
  rcases hcen with rfl | rfl
  · refine Eq.trans (head_auto hcm hs 'G' c!"Gamma" [intLine (prec + 4) div ++ suf, floatLine prec sh ++ suf]
      (by decide) (by decide)) ?_
    unfold parseAutomatic
    rw [if_neg (by decide), if_pos (by decide), i3]
    simp only [Res.ok_bind]
    rw [hs.words, words_intLine, mapM'_toInt]
    simp only [Res.ok_bind]
    rw [if_pos (i5 _ _ _ _ _), i4]
    simp only [Res.ok_bind]
    rw [hs.words, words_floatLine, mapM'_toFloat]
    rfl
  · refine Eq.trans (head_auto hcm hs 'M' c!"Monkhorst-Pack" [intLine (prec + 4) div ++ suf, floatLine prec sh ++ suf]
      (by decide) (by decide)) ?_
    unfold parseAutomatic
    rw [if_neg (by decide), if_pos (by decide), i3]
    simp only [Res.ok_bind]
    rw [hs.words, words_intLine, mapM'_toInt]
    simp only [Res.ok_bind]
    rw [if_pos (i5 _ _ _ _ _), i4]
    simp only [Res.ok_bind]
    rw [hs.words, words_floatLine, mapM'_toFloat]
    rfl

theorem parse_reciprocal (prec : Nat) {cm : Option Str} (hcm : OkComment cm) {suf : Str} (hs : Eol suf)
    (u v w sh : List Rat) :
    parse ((autoLines prec cm c!"Reciprocal" [floatLine prec u, floatLine prec v, floatLine prec w] sh).map (· ++ suf)) =
      .ok { comment := shownComment cm, num := 0, mode := c!"automatic", centering := some c!"Reciprocal"
            vectors := some [u.map (roundDec prec), v.map (roundDec prec), w.map (roundDec prec)]
            shifts := some (sh.map (roundDec prec)) } := by
  refine Eq.trans (head_auto hcm hs 'R' c!"Reciprocal"
    [floatLine prec u ++ suf, floatLine prec v ++ suf, floatLine prec w ++ suf, floatLine prec sh ++ suf] (by decide) (by decide)) ?_
  unfold parseAutomatic
  rw [if_neg (by decide), if_neg (by decide), if_pos (by decide)]
  have hw : ∀ xs : List Rat, Res.mapM' toFloat (words (floatLine prec xs ++ suf)) = .ok (xs.map (roundDec prec)) := by
    intro xs; rw [hs.words, words_floatLine, mapM'_toFloat]
  simp [Res.mapM', idx, hw]

theorem write_auto (prec : Nat) (e : Entries) (cm : Option Str) (p : Parsed) (cen : Str) (mid : List Str) (sh : Option (List Rat))
    (hh : Holds e cm p) (hs : Sound p) (hm : p.mode = c!"automatic") (hcen : p.centering = some cen)
    (hsh : p.shifts = sh) (hlen : ∀ s, sh = some s → s.length = 3)
    (hmid : ∃ a b, writeDivisions prec (optVal (atomsVal .int) p.divisions) = .ok a ∧
      writeVectors prec (optVal (rowsVal .float) p.vectors) = .ok b ∧ a ++ b = unlines mid) :
    write prec e = .ok (unlines (autoLines prec cm cen mid (shownShifts sh))) := by
  have h1 := hh.comment; have h2 := hh.mode; have h3 := hh.num; have h4 := hh.divisions; have h5 := hh.vectors
  have h6 := hh.shifts; have h7 := hh.centering
  rw [hm] at h2; rw [hcen] at h7; rw [hsh] at h6
  obtain ⟨a, b, ha, hb, hab⟩ := hmid
  have hst : writeShifts prec (optVal (atomsVal .float) sh) = .ok (floatLine prec (shownShifts sh) ++ ['\n']) := by
    cases sh with
    | none => rfl
    | some s =>
      obtain ⟨x, y, z, rfl⟩ := coord3 (hlen s rfl)
      rfl
  unfold write
  rw [validate_holds hh hs]
  simp only [Res.ok_bind, lookup, h1, h2, h3]
  rw [if_neg (by decide), if_pos trivial]
  have h7' : e.get? c!"centering" = some (.str cen) := h7
  simp only [writeAutomatic, lookup, h7', Res.ok_bind, h4, h5, h6, ha, hb, hst]
  congr 1
  unfold autoLines
  rw [unlines_cons, unlines_cons, unlines_cons, unlines_append, ← hab, unlines_cons]
  cases cm <;> simp [shownComment, optVal, unlines]

theorem autoLines_noBreak (prec : Nat) {cm : Option Str} (hcm : OkComment cm) {cen : Str} (hc : Free isLineBreak cen) {mid : List Str}
    (hm : ∀ l ∈ mid, Free isLineBreak l) (sh : List Rat) : ∀ l ∈ autoLines prec cm cen mid sh, Free isLineBreak l := by
  intro l hl
  simp only [autoLines, List.mem_cons, List.mem_append, List.not_mem_nil, or_false] at hl
  rcases hl with rfl | rfl | rfl | hl | rfl
  · exact Free.append_iff.2 ⟨by unfold Free; decide, (okComment_shown hcm).2.2⟩
  · unfold Free; decide
  · exact hc
  · exact hm l hl
  · exact floatLine_noBreak prec _

/-- Specification: shifts as they come back; `None` becomes zero. -/
def shiftsBack (prec : Nat) : Option (List Rat) → List Rat
  | none => [0, 0, 0]
  | some s => s.map (roundDec prec)

theorem shiftsBack_eq (prec : Nat) (sh : Option (List Rat)) : (shownShifts sh).map (roundDec prec) = shiftsBack prec sh := by
  cases sh <;> simp [shownShifts, shiftsBack, roundDec_zero]

/-- C22. A Gamma or Monkhorst-Pack grid is written and read back (as string, file or handler) with the same centering and
divisions; the shifts are rounded to `prec` decimals, missing shifts become zero. -/
theorem C22_grid_round_trip (prec : Nat) (e : Entries) (cm : Option Str) (p : Parsed) (cen : Str) (div : List Int)
    (hh : Holds e cm p) (hs : Sound p) (hm : p.mode = c!"automatic")
    (hcen : p.centering = some cen) (hcen' : cen = c!"Gamma" ∨ cen = c!"Monkhorst-Pack") (hd : p.divisions = some div)
    (hdl : div.length = 3) (hv : p.vectors = none) (hsl : ∀ s, p.shifts = some s → s.length = 3) (hcm : OkComment cm) :
    ∃ text, write prec e = .ok text ∧ ∀ s, FromText text s → ∃ e', init s = .ok e' ∧
      Holds e' (some (shownComment cm))
        { comment := shownComment cm, num := 0, mode := c!"automatic", centering := some cen, divisions := some div
          shifts := some (shiftsBack prec p.shifts) } := by
  refine ⟨_, write_auto prec e cm p cen [intLine (prec + 4) div] p.shifts hh hs hm hcen rfl hsl ?_, ?_⟩
  · rw [hd, hv]
    match div, hdl with
    | [a, b, c], _ => exact ⟨_, [], rfl, rfl, by simp [unlines, intLine, intRow]⟩
  · intro s hs'
    refine init_fromText (p := { comment := shownComment cm, num := 0, mode := c!"automatic", centering := some cen
                                 divisions := some div, shifts := some (shiftsBack prec p.shifts) })
      ?_ ?_ (fun suf hsuf => ?_) hs'
    · refine autoLines_noBreak prec hcm ?_ ?_ _
      · rcases hcen' with rfl | rfl <;> (unfold Free; decide)
      · intro l hl; rw [List.mem_singleton] at hl; subst hl; exact intLine_noBreak _ _
    · refine ⟨.inl (by simp), by simp, ?_, .inr (.inl rfl)⟩
      intro c hc; simp at hc; subst hc; rcases hcen' with h | h <;> simp [h]
    · rw [parse_grid prec hcm hsuf cen hcen', shiftsBack_eq]

/-- C22. Generating vectors: likewise, the vectors are rounded to `prec` decimals. -/
theorem C22_vectors_round_trip (prec : Nat) (e : Entries) (cm : Option Str) (p : Parsed) (vs : List (List Rat))
    (hh : Holds e cm p) (hs : Sound p) (hm : p.mode = c!"automatic")
    (hcen : p.centering = some c!"Reciprocal") (hd : p.divisions = none) (hv : p.vectors = some vs) (hvl : vs.length = 3)
    (hvl' : ∀ v ∈ vs, v.length = 3) (hsl : ∀ s, p.shifts = some s → s.length = 3) (hcm : OkComment cm) :
    ∃ text, write prec e = .ok text ∧ ∀ s, FromText text s → ∃ e', init s = .ok e' ∧
      Holds e' (some (shownComment cm))
        { comment := shownComment cm, num := 0, mode := c!"automatic", centering := some c!"Reciprocal"
          vectors := some (vs.map fun v => v.map (roundDec prec)), shifts := some (shiftsBack prec p.shifts) } := by
  match vs, hvl with
  | [u, v, w], _ =>
    obtain ⟨x1, y1, z1, rfl⟩ := coord3 (hvl' u (by simp))
    obtain ⟨x2, y2, z2, rfl⟩ := coord3 (hvl' v (by simp))
    obtain ⟨x3, y3, z3, rfl⟩ := coord3 (hvl' w (by simp))
    refine ⟨_, write_auto prec e cm p c!"Reciprocal" [floatLine prec [x1, y1, z1], floatLine prec [x2, y2, z2],
      floatLine prec [x3, y3, z3]] p.shifts hh hs hm hcen rfl hsl ?_, ?_⟩
    · rw [hd, hv]
      exact ⟨[], _, rfl, rfl, by simp [unlines, floatLine, floatRow]⟩
    · intro s hs'
      refine init_fromText (p := { comment := shownComment cm, num := 0, mode := c!"automatic", centering := some c!"Reciprocal"
                                   vectors := some ([[x1, y1, z1], [x2, y2, z2], [x3, y3, z3]].map fun v => v.map (roundDec prec))
                                   shifts := some (shiftsBack prec p.shifts) }) ?_ ?_ (fun suf hsuf => ?_) hs'
      · refine autoLines_noBreak prec hcm (by unfold Free; decide) ?_ _
        intro l hl
        simp only [List.mem_cons, List.not_mem_nil, or_false] at hl
        rcases hl with rfl | rfl | rfl <;> exact floatLine_noBreak _ _
      · refine ⟨.inr (.inr (by simp)), by simp, ?_, .inr (.inl rfl)⟩
        intro c hc; simp at hc; subst hc; simp
      · rw [parse_reciprocal prec hcm hsuf, shiftsBack_eq]; rfl

/-- Non-vacuity of C22. -/
example : ∃ e p, Holds e (some c!"mesh") p ∧ Sound p ∧ p.mode = c!"automatic" ∧ p.centering = some c!"Gamma" ∧
    p.divisions = some [4, 4, 2] ∧ p.vectors = none ∧ p.shifts = none ∧ OkComment (some c!"mesh") := by
  refine ⟨Parsed.toEntries { comment := c!"mesh", num := 0, mode := c!"automatic", centering := some c!"Gamma", divisions := some [4, 4, 2] },
    { comment := c!"mesh", num := 0, mode := c!"automatic", centering := some c!"Gamma", divisions := some [4, 4, 2] },
    holds_toEntries { comment := c!"mesh", num := 0, mode := c!"automatic", centering := some c!"Gamma", divisions := some [4, 4, 2] },
    ?_, rfl, rfl, rfl, rfl, rfl, ?_⟩
  · exact ⟨.inl (by simp), by simp, by simp, .inr (.inl rfl)⟩
  · rintro s ⟨⟩
    exact ⟨by unfold Stripped; decide, by decide, by unfold Free; decide⟩

/-- Example data. -/
def exampleVectors : Parsed :=
  { comment := c!"v", num := 0, mode := c!"automatic", centering := some c!"Reciprocal"
    vectors := some [[1/4, 0, 0], [0, 1/4, 0], [0, 0, 1/4]], shifts := some [1/2, 1/2, 0] }

example : ∃ e p, Holds e (some c!"v") p ∧ Sound p ∧ p.mode = c!"automatic" ∧ p.centering = some c!"Reciprocal" ∧
    p.divisions = none ∧ p.vectors = some [[1/4, 0, 0], [0, 1/4, 0], [0, 0, 1/4]] ∧ p.shifts = some [1/2, 1/2, 0] := by
  refine ⟨_, exampleVectors, holds_toEntries exampleVectors, ?_, rfl, rfl, rfl, rfl, rfl⟩
  exact ⟨.inr (.inr (by simp [exampleVectors])), by simp [exampleVectors], by simp [exampleVectors], .inr (.inl rfl)⟩

/-! ### C23 -/

/-- `x` after every second element that is followed by another one. -/
def interPairs {α} (x : α) : List α → List α
  | a :: b :: c :: r => a :: b :: x :: interPairs x (c :: r)
  | l => l

theorem interPairs_map {α β} (f : α → β) (x : α) (l : List α) : (interPairs x l).map f = interPairs (f x) (l.map f) := by
  fun_induction interPairs x l with
  | case1 a b c r ih => simp only [List.map_cons] at ih ⊢; rw [interPairs, ih]
  | case2 l h =>
    match l with
    | [] => rfl
    | [_] => rfl
    | [_, _] => rfl
    | a :: b :: c :: r => exact absurd rfl (h a b c r)

/-- The text of line mode, before the last character is removed. -/
theorem pairUp_lines (ls : List Str) :
    pairUp (ls.map (· ++ ['\n'])) = unlines (interPairs [] ls) ∨
      (ls ≠ [] ∧ pairUp (ls.map (· ++ ['\n'])) = unlines (interPairs [] ls) ++ ['\n']) := by
  fun_induction interPairs ([] : Str) ls with
  | case1 a b c r ih =>
    rcases ih with ih | ⟨_, ih⟩
    · left; simp only [List.map_cons, pairUp] at ih ⊢; rw [ih]; simp [unlines]
    · right; refine ⟨by simp, ?_⟩; simp only [List.map_cons, pairUp] at ih ⊢; rw [ih]; simp [unlines]
  | case2 l h =>
    match l with
    | [] => left; rfl
    | [a] => left; simp [pairUp, unlines]
    | [a, b] => right; simp [pairUp, unlines]
    | a :: b :: c :: r => exact absurd rfl (h a b c r)

/-- Lines with their ends: all but possibly the last one end in a newline. -/
inductive Ended : List Str → List Str → Prop
  | nil : Ended [] []
  | last (l : Str) : Ended [l] [l]
  | cons (l : Str) {a b : List Str} : Ended a b → Ended (l :: a) ((l ++ ['\n']) :: b)

theorem readlines_free {l : Str} (h : '\n' ∉ l) (hne : l ≠ []) : readlines l = [l] := by
  induction l with
  | nil => exact absurd rfl hne
  | cons x xs ih =>
    have hx : x ≠ '\n' := by rintro rfl; simp at h
    rw [readlines, if_neg (by simpa using hx)]
    cases xs with
    | nil => rfl
    | cons y ys => rw [ih (by intro hm; exact h (List.mem_cons_of_mem _ hm)) (by simp)]; rfl

theorem splitlines_free {l : Str} (h : Free isLineBreak l) (hne : l ≠ []) : splitlines l = [l] := by
  induction l with
  | nil => exact absurd rfl hne
  | cons x xs ih =>
    have hx : isLineBreak x = false := h x (by simp)
    rw [splitlines_cons_of_ne _ (by rintro rfl; revert hx; decide), hx, if_neg (by simp)]
    cases xs with
    | nil => simp [splitlines, consHead]
    | cons y ys => rw [ih (fun c hc => h c (by simp [hc])) (by simp)]; rfl

/-- A text with or without its last newline. -/
theorem read_cut (ls : List Str) (hls : ∀ l ∈ ls, Free isLineBreak l) (hlast : ∀ l, ls.getLast? = some l → l ≠ []) :
    Ended ls (readlines (unlines ls).dropLast) ∧ splitlines (unlines ls).dropLast = ls := by
  induction ls with
  | nil => exact ⟨.nil, by simp [splitlines]⟩
  | cons l ls ih =>
    have hl := hls l (by simp)
    cases ls with
    | nil =>
      have hne : l ≠ [] := hlast l (by simp)
      have : (unlines [l]).dropLast = l := by simp [unlines]
      rw [this, readlines_free (noNewline_of_noBreak hl) hne, splitlines_free hl hne]
      exact ⟨.last l, rfl⟩
    | cons m ms =>
      have ih' := ih (fun x hx => hls x (by simp [hx])) (fun x hx => hlast x (by simpa using hx))
      have hne : unlines (m :: ms) ≠ [] := by simp [unlines]
      have : (unlines (l :: m :: ms)).dropLast = l ++ '\n' :: (unlines (m :: ms)).dropLast := by
        rw [unlines_cons, List.dropLast_append_of_ne_nil (by simp), List.dropLast_cons_of_ne_nil hne]
      rw [this, readlines_line_append _ (noNewline_of_noBreak hl), splitlines_line_append _ hl, ih'.2]
      exact ⟨.cons l ih'.1, rfl⟩

theorem ended_map (ls : List Str) : Ended ls (ls.map (· ++ ['\n'])) := by
  induction ls with
  | nil => exact .nil
  | cons l ls ih => exact .cons l ih

/-- The lines of a line-mode KPOINTS. -/
def pathLines (prec : Nat) (cm : Option Str) (num : Int) (pts : List Kpoint) : List Str :=
  (c!"# " ++ shownComment cm) :: fmtInt 6 num :: c!"Line-mode" :: c!"Direct" ::
    interPairs [] (pts.map fun p => floatLine prec p.coord)

/-- A point as it comes back from line mode: coordinates rounded, weight 1. -/
def Kpoint.onPath (prec : Nat) (p : Kpoint) : Kpoint := ⟨p.coord.map (roundDec prec), some 1, true⟩

theorem parseLinePoint_line (prec : Nat) (p : Kpoint) (h : p.coord.length = 3) {suf : Str} (hs : Eol suf) :
    parseLinePoint (floatLine prec p.coord ++ suf) = .ok [p.onPath prec] := by
  unfold parseLinePoint
  have hw : words (floatLine prec p.coord ++ suf) = p.coord.map (fmtFixedRaw prec) := by rw [hs.words, words_floatLine]
  rw [if_neg, hw]
  · rw [List.take_of_length_le (by simp [h]), mapM'_toFloat]; rfl
  · intro e
    rw [e] at hw
    have : p.coord.map (fmtFixedRaw prec) = [] := by rw [← hw]; decide
    rw [List.map_eq_nil_iff] at this
    rw [this] at h; cases h

theorem Ended.head {l : Str} {a r : List Str} (h : Ended (l :: a) r) :
    ∃ suf r', Eol suf ∧ r = (l ++ suf) :: r' ∧ Ended a r' := by
  cases h with
  | last => exact ⟨[], [], .inl rfl, by simp, .nil⟩
  | cons _ h => exact ⟨['\n'], _, .inr rfl, rfl, h⟩

theorem Ended.tail {l m : Str} {a r : List Str} (h : Ended (l :: m :: a) r) :
    ∃ r', r = (l ++ ['\n']) :: r' ∧ Ended (m :: a) r' := by
  cases h with
  | cons _ h => exact ⟨_, rfl, h⟩

theorem mapM'_file (prec : Nat) (pts : List Kpoint) (hpts : ∀ p ∈ pts, p.coord.length = 3) (r : List Str)
    (h : Ended (interPairs [] (pts.map fun p => floatLine prec p.coord)) r) :
    ∃ pss, Res.mapM' parseLinePoint r = .ok pss ∧ pss.flatten = pts.map (Kpoint.onPath prec) := by
  induction pts using interPairs.induct generalizing r with
  | case1 a b c t ih =>
    simp only [List.map_cons, interPairs] at h
    obtain ⟨r1, rfl, h1⟩ := h.tail
    obtain ⟨r2, rfl, h2⟩ := h1.tail
    have h2' : ∃ r3, r2 = ([] ++ ['\n']) :: r3 ∧ Ended (interPairs [] ((c :: t).map fun p => floatLine prec p.coord)) r3 := by
      generalize hg : interPairs [] (floatLine prec c.coord :: List.map (fun p => floatLine prec p.coord) t) = g at h2
      have : ∃ m a, g = m :: a := by
        rw [← hg]
        match t with
        | [] => exact ⟨_, _, rfl⟩
        | [_] => exact ⟨_, _, rfl⟩
        | _ :: _ :: _ => exact ⟨_, _, rfl⟩
      obtain ⟨m, a, rfl⟩ := this
      obtain ⟨r3, rfl, h3⟩ := h2.tail
      exact ⟨r3, rfl, by simpa only [List.map_cons, hg] using h3⟩
    obtain ⟨r3, rfl, h3⟩ := h2'
    obtain ⟨pss, e1, e2⟩ := ih (fun p hp => hpts p (by simp at hp ⊢; tauto)) r3 h3
    refine ⟨[a.onPath prec] :: [b.onPath prec] :: [] :: pss, ?_, ?_⟩
    · have hb : parseLinePoint ([] ++ ['\n']) = .ok [] := rfl
      simp only [Res.mapM', parseLinePoint_line prec a (hpts a (by simp)) (.inr rfl),
        parseLinePoint_line prec b (hpts b (by simp)) (.inr rfl), hb, e1]
    · simp [e2]
  | case2 l hl =>
    match l with
    | [] => cases h; exact ⟨[], rfl, rfl⟩
    | [a] =>
      obtain ⟨suf, r', hs, rfl, h'⟩ := h.head
      cases h'
      exact ⟨[[a.onPath prec]], by simp [Res.mapM', parseLinePoint_line prec a (hpts a (by simp)) hs], rfl⟩
    | [a, b] =>
      obtain ⟨suf, r', hs, rfl, h'⟩ := h.head
      obtain ⟨suf', r'', hs', rfl, h''⟩ := h'.head
      cases h''
      exact ⟨[[a.onPath prec], [b.onPath prec]], by
        simp [Res.mapM', parseLinePoint_line prec a (hpts a (by simp)) hs, parseLinePoint_line prec b (hpts b (by simp)) hs'], rfl⟩
    | a :: b :: c :: r => exact absurd rfl (hl a b c r)

theorem mapM'_string (prec : Nat) (pts : List Kpoint) (hpts : ∀ p ∈ pts, p.coord.length = 3) :
    ∃ pss, Res.mapM' parseLinePoint (interPairs [] (pts.map fun p => floatLine prec p.coord)) = .ok pss ∧
      pss.flatten = interPairs ⟨[], some 1, true⟩ (pts.map (Kpoint.onPath prec)) := by
  refine ⟨interPairs [⟨[], some 1, true⟩] (pts.map fun p => [p.onPath prec]), ?_, ?_⟩
  · induction pts using interPairs.induct with
    | case1 a b c t ih =>
      simp only [List.map_cons, interPairs] at ih ⊢
      have ih' := ih (fun p hp => hpts p (by simp at hp ⊢; tauto))
      have hb : parseLinePoint [] = .ok [⟨[], some 1, true⟩] := rfl
      have ha := parseLinePoint_line prec a (hpts a (by simp)) (.inl rfl)
      have hb' := parseLinePoint_line prec b (hpts b (by simp)) (.inl rfl)
      rw [List.append_nil] at ha hb'
      simp only [Res.mapM', ha, hb', hb, ih']
    | case2 l hl =>
      match l with
      | [] => rfl
      | [a] =>
        have ha := parseLinePoint_line prec a (hpts a (by simp)) (.inl rfl)
        rw [List.append_nil] at ha
        simp [interPairs, Res.mapM', ha]
      | [a, b] =>
        have ha := parseLinePoint_line prec a (hpts a (by simp)) (.inl rfl)
        have hb := parseLinePoint_line prec b (hpts b (by simp)) (.inl rfl)
        rw [List.append_nil] at ha hb
        simp [interPairs, Res.mapM', ha, hb]
      | a :: b :: c :: r => exact absurd rfl (hl a b c r)
  · clear hpts
    induction pts using interPairs.induct with
    | case1 a b c t ih =>
      simp only [List.map_cons, interPairs] at ih ⊢
      simp [ih]
    | case2 l hl =>
      match l with
      | [] => rfl
      | [a] => rfl
      | [a, b] => rfl
      | a :: b :: c :: r => exact absurd rfl (hl a b c r)

theorem parse_path {cm : Option Str} (hcm : OkComment cm) (num : Int) {s0 s1 s2 s3 : Str} (h0 : Eol s0) (h1 : Eol s1) (h2 : Eol s2)
    (h3 : Eol s3) (rest : List Str) {pss : List (List Kpoint)} (hr : Res.mapM' parseLinePoint rest = .ok pss) :
    parse ((c!"# " ++ shownComment cm ++ s0) :: (fmtInt 6 num ++ s1) :: (c!"Line-mode" ++ s2) :: (c!"Direct" ++ s3) :: rest) =
      .ok { comment := shownComment cm, num := num, mode := c!"line", points := some pss.flatten } := by
  have i0 : ∀ (a : Str) (l : List Str), idx (a :: l) 0 = .ok a := fun _ _ => rfl
  have i1 : ∀ (a b : Str) (l : List Str), idx (a :: b :: l) 1 = .ok b := fun _ _ _ => rfl
  have i2 : ∀ (a b c : Str) (l : List Str), idx (a :: b :: c :: l) 2 = .ok c := fun _ _ _ _ => rfl
  have i3 : ∀ (a b c d : Str) (l : List Str), idx (a :: b :: c :: d :: l) 3 = .ok d := fun _ _ _ _ _ => rfl
  unfold parse
  rw [i0, i1, i2]
  simp only [Res.ok_bind]
  rw [h1.words, words_fmtInt, i0]
  simp only [Res.ok_bind]
  have hL : idx (strip c!"Line-mode") 0 = .ok 'L' := by decide
  have hl : lowerC 'L' = 'l' := by decide
  rw [toInt_intStr, h2.strip, hL]
  simp only [Res.ok_bind, hl, decide_true, Bool.not_true, Bool.and_false, Bool.false_eq_true, if_false, if_true]
  rw [read_comment hcm h0]
  have hauto : ∀ p : Parsed, (if decide (num ≤ 0) = true then parseAutomatic
      ((c!"# " ++ shownComment cm ++ s0) :: (fmtInt 6 num ++ s1) :: (c!"Line-mode" ++ s2) :: (c!"Direct" ++ s3) :: rest) p 'L'
      else .ok p) = .ok p := by
    intro p
    split
    · unfold parseAutomatic
      rw [if_neg (by decide), if_neg (by decide), if_neg (by decide), if_neg (by decide)]
    · rfl
  rw [hauto]
  simp only [Res.ok_bind]
  unfold parseLineMode
  rw [i3]
  simp only [Res.ok_bind]
  have hD : words c!"Direct" = [c!"Direct"] := by decide
  rw [h3.words, hD, i0]
  simp only [Res.ok_bind]
  have hD0 : idx c!"Direct" 0 = .ok 'D' := rfl
  rw [hD0]
  simp only [Res.ok_bind]
  rw [if_pos (by decide)]
  have : List.drop 4 ((c!"# " ++ shownComment cm ++ s0) :: (fmtInt 6 num ++ s1) :: (c!"Line-mode" ++ s2) :: (c!"Direct" ++ s3) :: rest) = rest := rfl
  rw [this, hr]
  rfl

theorem write_path (prec : Nat) (e : Entries) (cm : Option Str) (p : Parsed) (pts : List Kpoint)
    (hh : Holds e cm p) (hs : Sound p) (hm : p.mode = c!"line") (hp : p.points = some pts)
    (hpts : ∀ p ∈ pts, p.coord.length = 3) :
    ∃ text, write prec e = .ok text ∧ (text = (unlines (pathLines prec cm p.num pts)).dropLast ∨
      text = unlines (pathLines prec cm p.num pts)) := by
  have h1 := hh.comment; have h2 := hh.mode; have h3 := hh.num; have h4 := hh.points
  rw [hm] at h2; rw [hp] at h4
  have h4' : e.get? c!"points" = some (.list (pts.map fun a => Elem.atom (Atom.point a))) := h4
  have hpl : Res.mapM' (writeLinePoint prec) (pts.map fun a => Elem.atom (Atom.point a)) =
      .ok ((pts.map fun p => floatLine prec p.coord).map (· ++ ['\n'])) := by
    rw [Verif.Incar.mapM'_map, List.map_map]
    apply mapM'_ok_map
    intro q hq
    simp only [writeLinePoint, three_of_length (hpts q hq), Res.ok_bind]
    rfl
  have hw : write prec e = .ok (removeNewline (unlines [c!"# " ++ shownComment cm, fmtInt 6 p.num, c!"Line-mode", c!"Direct"] ++
      pairUp ((pts.map fun p => floatLine prec p.coord).map (· ++ ['\n'])))) := by
    unfold write
    rw [validate_holds hh hs]
    simp only [Res.ok_bind, lookup, h1, h2, h3]
    rw [if_neg (by decide), if_neg (by decide)]
    simp only [h4', Res.ok_bind, overPoints, hpl]
    congr 2
    cases cm <;> simp [shownComment, optVal, unlines]
  refine ⟨_, hw, ?_⟩
  have hsplit : pathLines prec cm p.num pts = [c!"# " ++ shownComment cm, fmtInt 6 p.num, c!"Line-mode", c!"Direct"] ++
      interPairs [] (pts.map fun p => floatLine prec p.coord) := rfl
  rw [hsplit, unlines_append]
  unfold removeNewline
  rcases pairUp_lines (pts.map fun p => floatLine prec p.coord) with h | ⟨_, h⟩
  · left; rw [h]
  · right; rw [h, ← List.append_assoc, List.dropLast_concat]

theorem pathLines_last (prec : Nat) (cm : Option Str) (num : Int) (pts : List Kpoint) (hpts : ∀ p ∈ pts, p.coord.length = 3) :
    ∀ l, (pathLines prec cm num pts).getLast? = some l → l ≠ [] := by
  have hfl : ∀ p ∈ pts, floatLine prec p.coord ≠ [] := by
    intro p hp h
    have := words_floatLine prec p.coord
    rw [h] at this
    have h3 := hpts p hp
    have : (p.coord.map (fmtFixedRaw prec)).length = 0 := by rw [← this]; rfl
    simp at this; rw [this] at h3; cases h3
  have hip : ∀ l, (interPairs [] (pts.map fun p => floatLine prec p.coord)).getLast? = some l → l ≠ [] := by
    clear hpts
    induction pts using interPairs.induct with
    | case1 a b c t ih =>
      intro l hl
      simp only [List.map_cons, interPairs] at hl ih
      generalize hg : interPairs [] (floatLine prec c.coord :: List.map (fun p => floatLine prec p.coord) t) = g at hl ih
      have : ∃ m a, g = m :: a := by
        rw [← hg]
        match t with
        | [] => exact ⟨_, _, rfl⟩
        | [_] => exact ⟨_, _, rfl⟩
        | _ :: _ :: _ => exact ⟨_, _, rfl⟩
      obtain ⟨m, a, rfl⟩ := this
      exact ih (fun p hp => hfl p (by simp at hp ⊢; tauto)) l (by simpa using hl)
    | case2 l hl =>
      match l with
      | [] => intro l h; cases h
      | [a] => intro l h; simp [interPairs] at h; subst h; exact hfl a (by simp)
      | [a, b] => intro l h; simp [interPairs] at h; subst h; exact hfl b (by simp)
      | a :: b :: c :: r => exact absurd rfl (hl a b c r)
  intro l hl
  unfold pathLines at hl
  generalize hg : interPairs [] (pts.map fun p => floatLine prec p.coord) = g at hl hip
  cases g with
  | nil => simp at hl; subst hl; decide
  | cons m a => exact hip l (by simpa using hl)

theorem interPairs_mem {α} {x y : α} {l : List α} (h : y ∈ interPairs x l) : y = x ∨ y ∈ l := by
  induction l using interPairs.induct with
  | case1 a b c t ih =>
    simp only [interPairs, List.mem_cons] at h ih ⊢
    rcases h with h | h | h | h
    · simp [h]
    · simp [h]
    · simp [h]
    · have := ih h; tauto
  | case2 l hl =>
    match l with
    | [] => cases h
    | [a] => right; exact h
    | [a, b] => right; exact h
    | a :: b :: c :: r => exact absurd rfl (hl a b c r)

theorem pathLines_noBreak (prec : Nat) {cm : Option Str} (hcm : OkComment cm) (num : Int) (pts : List Kpoint) :
    ∀ l ∈ pathLines prec cm num pts, Free isLineBreak l := by
  intro l hl
  simp only [pathLines, List.mem_cons] at hl
  rcases hl with rfl | rfl | rfl | rfl | hl
  · exact Free.append_iff.2 ⟨by unfold Free; decide, (okComment_shown hcm).2.2⟩
  · exact fmtInt_noBreak 6 _
  · unfold Free; decide
  · unfold Free; decide
  · rcases interPairs_mem hl with rfl | h
    · unfold Free; simp
    · obtain ⟨p, _, rfl⟩ := List.mem_map.1 h
      exact floatLine_noBreak _ _

/-- The line-mode text read as a file and as a string. -/
theorem path_read (prec : Nat) (e : Entries) (cm : Option Str) (p : Parsed) (pts : List Kpoint)
    (hh : Holds e cm p) (hs : Sound p) (hm : p.mode = c!"line") (hp : p.points = some pts)
    (hpts : ∀ p ∈ pts, p.coord.length = 3) (hcm : OkComment cm) :
    ∃ text, write prec e = .ok text ∧
      parse (readlines text) = .ok { comment := shownComment cm, num := p.num, mode := c!"line",
                                     points := some (pts.map (Kpoint.onPath prec)) } ∧
      parse (splitlines text) = .ok { comment := shownComment cm, num := p.num, mode := c!"line"
                                      points := some (interPairs ⟨[], some 1, true⟩ (pts.map (Kpoint.onPath prec))) } := by
  obtain ⟨text, hw, ht⟩ := write_path prec e cm p pts hh hs hm hp hpts
  have hnb := pathLines_noBreak prec hcm p.num pts
  have hread : Ended (pathLines prec cm p.num pts) (readlines text) ∧ splitlines text = pathLines prec cm p.num pts := by
    rcases ht with rfl | rfl
    · exact read_cut _ hnb (pathLines_last prec cm p.num pts hpts)
    · obtain ⟨h1, h2⟩ := read_unlines _ hnb
      rw [h1, h2]; exact ⟨ended_map _, by simp⟩
  refine ⟨text, hw, ?_, ?_⟩
  · have h := hread.1
    generalize readlines text = R at h
    unfold pathLines at h
    obtain ⟨s0, R, h0, rfl, g0⟩ := h.head
    obtain ⟨s1, R, h1, rfl, g1⟩ := g0.head
    obtain ⟨s2, R, h2, rfl, g2⟩ := g1.head
    obtain ⟨s3, R, h3, rfl, g3⟩ := g2.head
    obtain ⟨pss, e1, e2⟩ := mapM'_file prec pts hpts R g3
    rw [parse_path hcm p.num h0 h1 h2 h3 R e1, e2]
  · rw [hread.2]
    obtain ⟨pss, e1, e2⟩ := mapM'_string prec pts hpts
    have := parse_path hcm p.num (.inl rfl) (.inl rfl) (.inl rfl) (.inl rfl) _ e1
    simp only [List.append_nil] at this
    unfold pathLines
    rw [this, e2]

/-- What a line-mode text is read as (abbreviation for the proofs). -/
def pathParsed (cm : Option Str) (num : Int) (pts : List Kpoint) : Parsed :=
  { comment := shownComment cm, num := num, mode := c!"line", points := some pts }

/-- C23 (the part that is true). A line-mode KPOINTS written and read back from a file or handler gives the same points, rounded
to `prec` decimals (weight 1), the same number and the same comment. Missing: the same for a string, which is false for more
than two points (`C23_violation_string`). -/
theorem C23_file_round_trip_partial (prec : Nat) (e : Entries) (cm : Option Str) (p : Parsed) (pts : List Kpoint)
    (hh : Holds e cm p) (hs : Sound p) (hm : p.mode = c!"line") (hp : p.points = some pts)
    (hpts : ∀ p ∈ pts, p.coord.length = 3) (hcm : OkComment cm) :
    ∃ text, write prec e = .ok text ∧
      ∀ s : Sources, (s = { path := some (some text) } ∨ s = { handler := some text } ∨
          (pts.length ≤ 2 ∧ s = { string := some text })) →
        ∃ e', init s = .ok e' ∧ Holds e' (some (shownComment cm))
          { comment := shownComment cm, num := p.num, mode := c!"line"
            points := some (pts.map fun k => ⟨k.coord.map (roundDec prec), some 1, true⟩) } := by
  obtain ⟨text, hw, h1, h2⟩ := path_read prec e cm p pts hh hs hm hp hpts hcm
  refine ⟨text, hw, ?_⟩
  intro s hs'
  have sound : ∀ q, Sound (pathParsed cm p.num q) := by
    intro q; exact ⟨.inr (.inl (by simp [pathParsed])), by simp [pathParsed], by simp [pathParsed], .inr (.inr rfl)⟩
  have e1 : fromList (readlines text) = .ok (Parsed.toEntries (pathParsed cm p.num (pts.map (Kpoint.onPath prec)))) := by
    unfold fromList; rw [h1]; rfl
  refine ⟨_, ?_, holds_toEntries (pathParsed cm p.num (pts.map (Kpoint.onPath prec)))⟩
  have hv := validate_holds (holds_toEntries _) (sound (pts.map (Kpoint.onPath prec)))
  rcases hs' with rfl | rfl | ⟨hl, rfl⟩
  · simp [init, guards, load, fromFile, e1, hv]
  · simp [init, guards, load, fromFile, e1, hv]
  · have : interPairs ⟨[], some 1, true⟩ (pts.map (Kpoint.onPath prec)) = pts.map (Kpoint.onPath prec) := by
      match pts, hl with
      | [], _ => rfl
      | [_], _ => rfl
      | [_, _], _ => rfl
    rw [this] at h2
    have e2 : fromList (splitlines text) = .ok (Parsed.toEntries (pathParsed cm p.num (pts.map (Kpoint.onPath prec)))) := by
      unfold fromList; rw [h2]; rfl
    simp [init, guards, load, e2, hv]

/-- C23 is false for strings: whenever there are more than two points, reading the written text back as a string yields
additional points without coordinates. -/
theorem C23_violation_string (prec : Nat) (e : Entries) (cm : Option Str) (p : Parsed) (a b c : Kpoint) (t : List Kpoint)
    (hh : Holds e cm p) (hs : Sound p) (hm : p.mode = c!"line") (hp : p.points = some (a :: b :: c :: t))
    (hpts : ∀ p ∈ a :: b :: c :: t, p.coord.length = 3) (hcm : OkComment cm) :
    ∃ text e' q, write prec e = .ok text ∧ init { string := some text } = .ok e' ∧
      e'.get? c!"points" = some (atomsVal .point q) ∧ (⟨[], some 1, true⟩ : Kpoint) ∈ q := by
  obtain ⟨text, hw, h1, h2⟩ := path_read prec e cm p _ hh hs hm hp hpts hcm
  have sound : ∀ q, Sound (pathParsed cm p.num q) := by
    intro q; exact ⟨.inr (.inl (by simp [pathParsed])), by simp [pathParsed], by simp [pathParsed], .inr (.inr rfl)⟩
  have hv := validate_holds (holds_toEntries _) (sound (interPairs ⟨[], some 1, true⟩ ((a :: b :: c :: t).map (Kpoint.onPath prec))))
  have e3 : fromList (splitlines text) = .ok (Parsed.toEntries (pathParsed cm p.num (interPairs ⟨[], some 1, true⟩ ((a :: b :: c :: t).map (Kpoint.onPath prec))))) := by
    unfold fromList; rw [h2]; rfl
  refine ⟨text, Parsed.toEntries (pathParsed cm p.num (interPairs ⟨[], some 1, true⟩ ((a :: b :: c :: t).map (Kpoint.onPath prec)))),
    interPairs ⟨[], some 1, true⟩ ((a :: b :: c :: t).map (Kpoint.onPath prec)), hw, ?_, ?_, ?_⟩
  · unfold init
    rw [if_neg (by simp [guards])]
    have hl : load { string := some text } = fromList (splitlines text) := rfl
    rw [hl, e3]
    simp only [Res.ok_bind]
    rw [hv]
    rfl
  · rfl
  · simp [interPairs]

/-- Non-vacuity of C23 (both parts): three points in line mode. -/
def examplePath : Parsed :=
  { comment := c!"bands", num := 20, mode := c!"line"
    points := some [⟨[0, 0, 0], some 1, true⟩, ⟨[1/2, 0, 0], some 1, true⟩, ⟨[1/2, 1/2, 1/3], some 1, true⟩] }

example : Holds examplePath.toEntries (some c!"bands") examplePath ∧ Sound examplePath ∧ OkComment (some c!"bands") := by
  refine ⟨holds_toEntries examplePath, ⟨.inr (.inl (by simp [examplePath])), by simp [examplePath], by simp [examplePath], .inr (.inr rfl)⟩, ?_⟩
  rintro s ⟨⟩
  exact ⟨by unfold Stripped; decide, by decide, by unfold Free; decide⟩

end Verif.Kpoints
