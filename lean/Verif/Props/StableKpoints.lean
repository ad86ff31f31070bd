import Verif.Props.StableFloats
import Verif.Props.KpointsRound
/-! # C101: a KPOINTS that is read and written again does not change -/
set_option autoImplicit false
namespace Verif.Kpoints
open Verif

/-- Every number of what is read as a machine number. -/
def Parsed.machine (N : Floats) (p : Parsed) : Parsed :=
  { p with
    vectors := p.vectors.map fun l => l.map fun r => r.map N.near
    shifts := p.shifts.map fun l => l.map N.near
    points := p.points.map fun l => l.map (Kpoint.machine N)
    tetraVol := p.tetraVol.map N.near }

theorem get?_map_machine (N : Floats) (e : Entries) (k : Str) :
    Dict.get? (e.map fun kv => (kv.1, kv.2.machine N)) k = (e.get? k).map (Val.machine N) := by
  induction e with
  | nil => rfl
  | cons a e ih =>
    simp only [List.map_cons, Dict.get?]
    split
    · rfl
    · exact ih

theorem holds_machine (N : Floats) {e : Entries} {cm : Option Str} {p : Parsed} (h : Holds e cm p) :
    Holds (e.map fun kv => (kv.1, kv.2.machine N)) cm (p.machine N) := by
  constructor <;> rw [get?_map_machine]
  · rw [h.comment]; cases cm <;> rfl
  · rw [h.divisions]
    show _ = some (optVal _ p.divisions)
    cases p.divisions <;> simp [optVal, atomsVal, Val.machine, Atom.machine, Elem.machine, Function.comp_def]
  · rw [h.vectors]
    show _ = some (optVal _ (p.vectors.map _))
    cases p.vectors <;> simp [optVal, rowsVal, Val.machine, Atom.machine, Elem.machine, Function.comp_def]
  · rw [h.shifts]
    show _ = some (optVal _ (p.shifts.map _))
    cases p.shifts <;> simp [optVal, atomsVal, Val.machine, Atom.machine, Elem.machine, Function.comp_def]
  · rw [h.points]
    show _ = some (optVal _ (p.points.map _))
    cases p.points <;> simp [optVal, atomsVal, Val.machine, Atom.machine, Elem.machine, Function.comp_def]
  · rw [h.tetra]
    show _ = some (optVal _ p.tetra)
    cases p.tetra <;> simp [optVal, rowsVal, Val.machine, Atom.machine, Elem.machine, Function.comp_def]
  · rw [h.volume]
    show _ = some (optVal _ (p.tetraVol.map _))
    cases p.tetraVol <;> rfl
  · rw [h.mode]; rfl
  · rw [h.centering]
    show _ = some (optVal _ p.centering)
    cases p.centering <;> rfl
  · rw [h.num]; rfl

theorem sound_machine (N : Floats) {p : Parsed} (h : Sound p) : Sound (p.machine N) := by
  refine ⟨?_, h.tetra, h.centering, h.mode⟩
  rcases h.nonempty with h | h | h
  · exact .inl h
  · right; left
    show p.points.map _ ≠ none
    simpa using h
  · right; right
    show p.vectors.map _ ≠ none
    simpa using h

theorem readFloats_holds (N : Floats) {s : Sources} {e : Entries} {cm : Option Str} {p : Parsed} (hi : init s = .ok e) (h : Holds e cm p) :
    ∃ e', readFloats N s = .ok e' ∧ Holds e' cm (p.machine N) :=
  ⟨_, by unfold readFloats; rw [hi]; rfl, holds_machine N h⟩

theorem floatLine_near {N : Floats} {prec : Nat} {l : List Rat} (h : ∀ x ∈ l, N.Shown prec x) :
    floatLine prec ((l.map (roundDec prec)).map N.near) = floatLine prec l := by
  unfold floatLine
  congr 1
  rw [List.map_map, List.map_map]
  apply List.map_congr_left
  intro x hx
  simp only [Function.comp_apply, fmtFixed, N.fmt_near (h x hx)]

/-- C101 for an explicit KPOINTS: the text written for it, read again and written again is the same text, byte for byte; for all machine
numbers (a missing weight is written as 1, so that 1 has to be one) and any correctly rounding `float()`. -/
theorem C101_explicit (N : Floats) (prec : Nat) (e : Entries) (cm : Option Str) (p : Parsed) (pts : List Kpoint)
    (tet : Option (List (List Int) × Rat)) (hh : Holds e cm p) (hs : Sound p) (hm : p.mode = c!"explicit")
    (hp : p.points = some pts) (hn : p.num = pts.length) (hne : pts ≠ []) (ht : p.tetra = tet.map Prod.fst)
    (hv : p.tetraVol = tet.map Prod.snd) (hpts : ∀ p ∈ pts, p.coord.length = 3) (hcm : OkComment cm)
    (hf : ∀ k ∈ pts, (∀ x ∈ k.coord, N.Shown prec x) ∧ N.Shown prec (k.weight.getD 1)) (hfv : ∀ t, tet = some t → N.Shown prec t.2) :
    ∃ text, write prec e = .ok text ∧ ∀ s, FromText text s → ∃ e', readFloats N s = .ok e' ∧ write prec e' = .ok text := by
  obtain ⟨text, hw, hr⟩ := C21_explicit_round_trip prec e cm p pts tet hh hs hm hp hn hne ht hv hpts hcm
  refine ⟨text, hw, ?_⟩
  intro s hs'
  obtain ⟨e1, hi, hh1⟩ := hr s hs'
  obtain ⟨e', hr', hh'⟩ := readFloats_holds N hi hh1
  refine ⟨e', hr', ?_⟩
  have htet : ∀ rows, tet.map Prod.fst = some rows → ∀ r ∈ rows, r.length = 5 := by
    intro rows hrows; exact hs.tetra rows (by rw [ht]; exact hrows)
  have hw' := write_explicit prec e' _ _ ((pts.map fun k => (⟨k.coord.map (roundDec prec), some (roundDec prec (k.weight.getD 1)), true⟩ : Kpoint)).map (Kpoint.machine N))
    (tet.map fun t => (t.1, N.near (roundDec prec t.2))) hh'
    (sound_machine N ⟨.inr (.inl (by simp)), htet, by simp, .inl rfl⟩) rfl rfl
    (by show (pts.length : Int) = _; simp) (by show tet.map Prod.fst = _; cases tet <;> rfl)
    (by show Option.map _ (Option.map _ tet) = _; cases tet <;> rfl)
    (by
      intro k hk
      rw [List.map_map] at hk
      obtain ⟨q, hq, rfl⟩ := List.mem_map.1 hk
      show ((q.coord.map _).map _).length = 3
      simpa using hpts q hq)
  rw [hw']
  rw [write_explicit prec e cm p pts tet hh hs hm hp hn ht hv hpts] at hw
  rw [← Res.ok.inj hw]
  congr 2
  unfold explicitLines explicitLinesN
  have h1 : shownComment (some (shownComment cm)) = shownComment cm := rfl
  rw [h1]
  congr 1
  congr 1
  · simp
  congr 1
  congr 1
  · rw [List.map_map, List.map_map]
    apply List.map_congr_left
    intro k hk
    obtain ⟨h1, h2⟩ := hf k hk
    show floatLine prec ((k.coord.map (roundDec prec)).map N.near ++ [N.near (roundDec prec (k.weight.getD 1))]) = _
    rw [← floatLine_near (N := N) (prec := prec) (l := k.coord ++ [k.weight.getD 1])]
    · simp
    · intro x hx
      rcases List.mem_append.1 hx with hx | hx
      · exact h1 x hx
      · rw [List.mem_singleton.1 hx]; exact h2
  · cases tet with
    | none => rfl
    | some t =>
      simp only [Option.map_some, tetraLines, fmtFixed, N.fmt_near (hfv t rfl)]

/-- The machine numbers of written shifts. -/
theorem shifts_near {N : Floats} {prec : Nat} {sh : Option (List Rat)} (h : ∀ l, sh = some l → ∀ x ∈ l, N.Shown prec x) :
    floatLine prec ((shiftsBack prec sh).map N.near) = floatLine prec (shownShifts sh) := by
  rw [← shiftsBack_eq]
  apply floatLine_near
  intro x hx
  cases sh with
  | some l => exact h l rfl x hx
  | none =>
    have : x = 0 := by simp [shownShifts] at hx; exact hx
    rw [this]
    exact ⟨N.zero_mem, fun h => absurd h (lt_irrefl _)⟩

theorem shiftsBack_length {prec : Nat} {sh : Option (List Rat)} (h : ∀ l, sh = some l → l.length = 3) : (shiftsBack prec sh).length = 3 := by
  cases sh with
  | none => rfl
  | some l => simpa [shiftsBack] using h l rfl

/-- C101 for a Gamma or Monkhorst-Pack grid. -/
theorem C101_grid (N : Floats) (prec : Nat) (e : Entries) (cm : Option Str) (p : Parsed) (cen : Str) (div : List Int)
    (hh : Holds e cm p) (hs : Sound p) (hm : p.mode = c!"automatic")
    (hcen : p.centering = some cen) (hcen' : cen = c!"Gamma" ∨ cen = c!"Monkhorst-Pack") (hd : p.divisions = some div)
    (hdl : div.length = 3) (hv : p.vectors = none) (hsl : ∀ s, p.shifts = some s → s.length = 3) (hcm : OkComment cm)
    (hf : ∀ l, p.shifts = some l → ∀ x ∈ l, N.Shown prec x) :
    ∃ text, write prec e = .ok text ∧ ∀ s, FromText text s → ∃ e', readFloats N s = .ok e' ∧ write prec e' = .ok text := by
  obtain ⟨text, hw, hr⟩ := C22_grid_round_trip prec e cm p cen div hh hs hm hcen hcen' hd hdl hv hsl hcm
  refine ⟨text, hw, ?_⟩
  intro s hs'
  obtain ⟨e1, hi, hh1⟩ := hr s hs'
  obtain ⟨e', hr', hh'⟩ := readFloats_holds N hi hh1
  refine ⟨e', hr', ?_⟩
  have hmid : ∃ a b, writeDivisions prec (optVal (atomsVal .int) (some div)) = .ok a ∧
      writeVectors prec (optVal (rowsVal .float) none) = .ok b ∧ a ++ b = unlines [intLine (prec + 4) div] := by
    match div, hdl with
    | [a, b, c], _ => exact ⟨_, [], rfl, rfl, by simp [unlines, intLine, intRow]⟩
  have hl := shiftsBack_length (prec := prec) hsl
  have hw' := write_auto prec e' _ _ cen [intLine (prec + 4) div] (some ((shiftsBack prec p.shifts).map N.near)) hh'
    (sound_machine N ⟨.inl (by simp), by simp, by intro c hc; cases hc; rcases hcen' with h | h <;> simp [h], .inr (.inl rfl)⟩) rfl rfl rfl
    (by intro l h; cases h; simpa using hl) hmid
  rw [hw']
  rw [write_auto prec e cm p cen [intLine (prec + 4) div] p.shifts hh hs hm hcen rfl hsl (by rw [hd, hv]; exact hmid)] at hw
  rw [← Res.ok.inj hw]
  have h1 : shownShifts (some ((shiftsBack prec p.shifts).map N.near)) = (shiftsBack prec p.shifts).map N.near := rfl
  unfold autoLines
  rw [h1, shifts_near hf]
  rfl

/-- C101 for generating vectors. -/
theorem C101_vectors (N : Floats) (prec : Nat) (e : Entries) (cm : Option Str) (p : Parsed) (vs : List (List Rat))
    (hh : Holds e cm p) (hs : Sound p) (hm : p.mode = c!"automatic")
    (hcen : p.centering = some c!"Reciprocal") (hd : p.divisions = none) (hv : p.vectors = some vs) (hvl : vs.length = 3)
    (hvl' : ∀ v ∈ vs, v.length = 3) (hsl : ∀ s, p.shifts = some s → s.length = 3) (hcm : OkComment cm)
    (hf : ∀ l, p.shifts = some l → ∀ x ∈ l, N.Shown prec x) (hfv : ∀ v ∈ vs, ∀ x ∈ v, N.Shown prec x) :
    ∃ text, write prec e = .ok text ∧ ∀ s, FromText text s → ∃ e', readFloats N s = .ok e' ∧ write prec e' = .ok text := by
  obtain ⟨text, hw, hr⟩ := C22_vectors_round_trip prec e cm p vs hh hs hm hcen hd hv hvl hvl' hsl hcm
  refine ⟨text, hw, ?_⟩
  intro s hs'
  obtain ⟨e1, hi, hh1⟩ := hr s hs'
  obtain ⟨e', hr', hh'⟩ := readFloats_holds N hi hh1
  refine ⟨e', hr', ?_⟩
  have hmid : ∀ ws : List (List Rat), ws.length = 3 → (∀ v ∈ ws, v.length = 3) → ∃ a b, writeDivisions prec (optVal (atomsVal .int) none) = .ok a ∧
      writeVectors prec (optVal (rowsVal .float) (some ws)) = .ok b ∧ a ++ b = unlines (ws.map (floatLine prec)) := by
    intro ws h1 h2
    match ws, h1 with
    | [u, v, w], _ =>
      obtain ⟨x1, y1, z1, rfl⟩ := coord3 (h2 u (by simp))
      obtain ⟨x2, y2, z2, rfl⟩ := coord3 (h2 v (by simp))
      obtain ⟨x3, y3, z3, rfl⟩ := coord3 (h2 w (by simp))
      exact ⟨[], _, rfl, rfl, by simp [unlines, floatLine, floatRow]⟩
  have hl := shiftsBack_length (prec := prec) hsl
  have hws := hmid ((vs.map fun v => v.map (roundDec prec)).map fun r => r.map N.near) (by simpa using hvl) (by
      intro v hv
      rw [List.map_map] at hv
      obtain ⟨w, hw, rfl⟩ := List.mem_map.1 hv
      simpa using hvl' w hw)
  have hw' := write_auto prec e' _ _ c!"Reciprocal" _
    (some ((shiftsBack prec p.shifts).map N.near)) hh'
    (sound_machine N ⟨.inr (.inr (by simp)), by simp, by intro c hc; cases hc; simp, .inr (.inl rfl)⟩) rfl rfl rfl
    (by intro l h; cases h; simpa using hl) hws
  rw [hw']
  rw [write_auto prec e cm p c!"Reciprocal" (vs.map (floatLine prec)) p.shifts hh hs hm hcen rfl hsl (by rw [hd, hv]; exact hmid vs hvl hvl')] at hw
  rw [← Res.ok.inj hw]
  have h1 : shownShifts (some ((shiftsBack prec p.shifts).map N.near)) = (shiftsBack prec p.shifts).map N.near := rfl
  have h2 : (((vs.map fun v => v.map (roundDec prec)).map fun r => r.map N.near).map (floatLine prec)) = vs.map (floatLine prec) := by
    rw [List.map_map, List.map_map]
    apply List.map_congr_left
    intro v hv
    exact floatLine_near (hfv v hv)
  unfold autoLines
  rw [h1, h2, shifts_near hf]
  rfl

/-- The text of a path. -/
theorem write_path_text (prec : Nat) (e : Entries) (cm : Option Str) (p : Parsed) (pts : List Kpoint)
    (hh : Holds e cm p) (hs : Sound p) (hm : p.mode = c!"line") (hp : p.points = some pts) (hpts : ∀ p ∈ pts, p.coord.length = 3) :
    write prec e = .ok (removeNewline (unlines [c!"# " ++ shownComment cm, fmtInt 6 p.num, c!"Line-mode", c!"Direct"] ++
      pairUp ((pts.map fun p => floatLine prec p.coord).map (· ++ ['\n'])))) := by
  have h1 := hh.comment; have h2 := hh.mode; have h3 := hh.num; have h4 := hh.points
  rw [hm] at h2; rw [hp] at h4
  have h4' : e.get? c!"points" = some (.list (pts.map fun a => Elem.atom (Atom.point a))) := h4
  have hpl : Res.mapM' (writeLinePoint prec) (pts.map fun a => Elem.atom (Atom.point a)) =
      .ok ((pts.map fun p => floatLine prec p.coord).map (· ++ ['\n'])) := by
    rw [Verif.Incar.mapM'_map, List.map_map]
    apply mapM'_ok_map
    intro q hq
    simp only [writeLinePoint, three_of_length (hpts q hq), Res.ok_bind]
    rfl
  unfold write
  rw [validate_holds hh hs]
  simp only [Res.ok_bind, lookup, h1, h2, h3]
  rw [if_neg (by decide), if_neg (by decide)]
  simp only [h4', Res.ok_bind, overPoints, hpl]
  congr 2
  cases cm <;> simp [shownComment, optVal, unlines]

/-- C101 for a path in line mode, from a file or a handler, and from a string for at most two points. Missing: a string with more points
(`C101_violation_path`). -/
theorem C101_path_partial (N : Floats) (prec : Nat) (e : Entries) (cm : Option Str) (p : Parsed) (pts : List Kpoint)
    (hh : Holds e cm p) (hs : Sound p) (hm : p.mode = c!"line") (hp : p.points = some pts)
    (hpts : ∀ p ∈ pts, p.coord.length = 3) (hcm : OkComment cm) (hf : ∀ k ∈ pts, ∀ x ∈ k.coord, N.Shown prec x) :
    ∃ text, write prec e = .ok text ∧
      ∀ s : Sources, (s = { path := some (some text) } ∨ s = { handler := some text } ∨ (pts.length ≤ 2 ∧ s = { string := some text })) →
        ∃ e', readFloats N s = .ok e' ∧ write prec e' = .ok text := by
  obtain ⟨text, hw, hr⟩ := C23_file_round_trip_partial prec e cm p pts hh hs hm hp hpts hcm
  refine ⟨text, hw, ?_⟩
  intro s hs'
  obtain ⟨e1, hi, hh1⟩ := hr s hs'
  obtain ⟨e', hr', hh'⟩ := readFloats_holds N hi hh1
  refine ⟨e', hr', ?_⟩
  have hw' := write_path_text prec e' _ _ ((pts.map fun k => (⟨k.coord.map (roundDec prec), some 1, true⟩ : Kpoint)).map (Kpoint.machine N)) hh'
    (sound_machine N ⟨.inr (.inl (by simp)), by simp, by simp, .inr (.inr rfl)⟩) rfl rfl (by
      intro k hk
      rw [List.map_map] at hk
      obtain ⟨q, hq, rfl⟩ := List.mem_map.1 hk
      show ((q.coord.map _).map _).length = 3
      simpa using hpts q hq)
  rw [hw']
  rw [write_path_text prec e cm p pts hh hs hm hp hpts] at hw
  rw [← Res.ok.inj hw]
  have h1 : ((pts.map fun k => (⟨k.coord.map (roundDec prec), some 1, true⟩ : Kpoint)).map (Kpoint.machine N)).map (fun p => floatLine prec p.coord) =
      pts.map fun p => floatLine prec p.coord := by
    rw [List.map_map, List.map_map]
    apply List.map_congr_left
    intro k hk
    exact floatLine_near (hf k hk)
  rw [h1]
  rfl

/-- C101 is false for every path of more than two points that is read as a string: the object cannot be written at all. -/
theorem C101_violation_path (N : Floats) (prec : Nat) (e : Entries) (cm : Option Str) (p : Parsed) (a b c : Kpoint) (t : List Kpoint)
    (hh : Holds e cm p) (hs : Sound p) (hm : p.mode = c!"line") (hp : p.points = some (a :: b :: c :: t))
    (hpts : ∀ p ∈ a :: b :: c :: t, p.coord.length = 3) (hcm : OkComment cm) :
    ∃ text e', write prec e = .ok text ∧ readFloats N { string := some text } = .ok e' ∧ write prec e' = .raise .indexError := by
  obtain ⟨text, hw, h1, h2⟩ := path_read prec e cm p _ hh hs hm hp hpts hcm
  have sound : ∀ q, Sound (pathParsed cm p.num q) := by
    intro q; exact ⟨.inr (.inl (by simp [pathParsed])), by simp [pathParsed], by simp [pathParsed], .inr (.inr rfl)⟩
  have hs3 := sound (interPairs ⟨[], some 1, true⟩ ((a :: b :: c :: t).map (Kpoint.onPath prec)))
  have hv := validate_holds (holds_toEntries _) hs3
  have e3 : fromList (splitlines text) = .ok (Parsed.toEntries (pathParsed cm p.num (interPairs ⟨[], some 1, true⟩ ((a :: b :: c :: t).map (Kpoint.onPath prec))))) := by
    unfold fromList; rw [h2]; rfl
  have hi : init { string := some text } = .ok (Parsed.toEntries (pathParsed cm p.num (interPairs ⟨[], some 1, true⟩ ((a :: b :: c :: t).map (Kpoint.onPath prec))))) := by
    unfold init
    rw [if_neg (by simp [guards])]
    have hl : load { string := some text } = fromList (splitlines text) := rfl
    rw [hl, e3]
    simp only [Res.ok_bind]
    rw [hv]
    rfl
  obtain ⟨e', hr, hh'⟩ := readFloats_holds N hi (holds_toEntries _)
  refine ⟨text, e', hw, hr, ?_⟩
  have g1 := hh'.comment; have g2 := hh'.mode; have g3 := hh'.num; have g4 := hh'.points
  have g4' : e'.get? c!"points" = some (.list ((Kpoint.machine N (a.onPath prec) :: Kpoint.machine N (b.onPath prec) :: ⟨[], some (N.near 1), true⟩ ::
      (interPairs ⟨[], some 1, true⟩ (Kpoint.onPath prec c :: t.map (Kpoint.onPath prec))).map (Kpoint.machine N)).map fun a => Elem.atom (Atom.point a))) := g4
  have g2' : e'.get? c!"mode" = some (.str c!"line") := g2
  have ha := three_of_length (l := (Kpoint.machine N (a.onPath prec)).coord) (by simp [Kpoint.machine, Kpoint.onPath, hpts a])
  have hb := three_of_length (l := (Kpoint.machine N (b.onPath prec)).coord) (by simp [Kpoint.machine, Kpoint.onPath, hpts b])
  unfold write
  rw [validate_holds hh' (sound_machine N hs3)]
  simp only [Res.ok_bind, lookup, g1, g2', g3]
  rw [if_neg (by decide), if_neg (by decide)]
  simp only [g4', Res.ok_bind, overPoints, List.map_cons, Res.mapM', writeLinePoint, ha, hb]
  rfl

/-- The hypotheses of C101 for KPOINTS are met: points at 0.1 as Python stores it, without and with a weight. -/
example : ∃ pts : List Kpoint, pts.length = 2 ∧ (∀ p ∈ pts, p.coord.length = 3) ∧
    ∀ k ∈ pts, (∀ x ∈ k.coord, Floats.binary64.Shown 9 x) ∧ Floats.binary64.Shown 9 (k.weight.getD 1) := by
  have z : Floats.binary64.Shown 9 0 := ⟨Floats.binary64.zero_mem, fun h => absurd h (lt_irrefl _)⟩
  have one : Floats.binary64.Shown 9 1 := ⟨(Floats.binary64_mem _).2 ⟨1, 0, by norm_num, by norm_num, by norm_num, by norm_num⟩, by norm_num⟩
  have tenth : Floats.binary64.Shown 9 (3602879701896397 / 36028797018963968) :=
    ⟨(Floats.binary64_mem _).2 ⟨3602879701896397, -55, by norm_num, by norm_num, by norm_num, by norm_num⟩, by norm_num⟩
  refine ⟨[⟨[3602879701896397 / 36028797018963968, 0, 0], none, true⟩, ⟨[0, 0, 1], some (3602879701896397 / 36028797018963968), true⟩], rfl, by simp, ?_⟩
  intro k hk
  simp only [List.mem_cons, List.not_mem_nil, or_false] at hk
  rcases hk with rfl | rfl
  · refine ⟨?_, one⟩
    intro x hx
    simp only [List.mem_cons, List.not_mem_nil, or_false] at hx
    rcases hx with rfl | rfl | rfl <;> assumption
  · refine ⟨?_, tenth⟩
    intro x hx
    simp only [List.mem_cons, List.not_mem_nil, or_false] at hx
    rcases hx with rfl | rfl | rfl <;> assumption

end Verif.Kpoints
