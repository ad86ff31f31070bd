import Verif.Props.Positions
/-! # Writing a KPOINTS whose points were edited (C131) -/
set_option autoImplicit false
namespace Verif.Kpoints
open Verif Verif.Utils Verif.Positions

/-- Specification: the number of deletions in a history. -/
def deletions (cs : List Named) : Nat := cs.countP fun c => match c.edit with
  | .delete _ => true
  | .replace _ _ => false

/-- The points a history puts in have three coordinates. -/
def PutsThree (cs : List Named) : Prop := ∀ c ∈ cs, ∀ p k, c.edit = .replace p k → k.coord.length = 3

/-- A history that runs to its end leaves as many points as there were but for the deletions, all with three coordinates. -/
theorem history_done {l l' : List Kpoint} (cs : List Named) (h : History l (cs.map (·.edit)) (.done l')) :
    l'.length + deletions cs = l.length ∧ (PutsThree cs → (∀ p ∈ l, p.coord.length = 3) → ∀ p ∈ l', p.coord.length = 3) := by
  generalize hx : cs.map (·.edit) = xs at h
  generalize hf : Fate.done l' = f at h
  induction h generalizing cs with
  | nil l =>
    cases hf
    cases cs with
    | nil => exact ⟨rfl, fun _ h => h⟩
    | cons c cs => cases hx
  | @cons l l1 x xs f hd _ ih =>
    cases cs with
    | nil => cases hx
    | cons c cs =>
      obtain ⟨hx1, hx2⟩ := List.cons.inj hx
      obtain ⟨i1, i2⟩ := ih cs hx2 hf
      have hx1 : c.edit = x := hx1
      cases hd with
      | delete a b y p hn =>
        refine ⟨?_, fun h1 h2 => i2 (fun c hc => h1 c (by simp [hc])) ?_⟩
        · unfold deletions at *
          rw [List.countP_cons_of_pos (by rw [hx1])]
          simp at i1 ⊢; omega
        · intro q hq; exact h2 q (by simp at hq ⊢; tauto)
      | replace a b y z p hn =>
        refine ⟨?_, fun h1 h2 => i2 (fun c hc => h1 c (by simp [hc])) ?_⟩
        · unfold deletions at *
          rw [List.countP_cons_of_neg (by rw [hx1]; simp)]
          simp at i1 ⊢; omega
        · intro q hq
          simp only [List.mem_append, List.mem_cons] at hq
          rcases hq with hq | rfl | hq
          · exact h2 q (by simp [hq])
          · exact h1 c (by simp) p _ hx1
          · exact h2 q (by simp [hq])
  | after => cases hf
  | before => cases hf

theorem mapM'_stops {α β : Type} (f : α → Res β) (a b : List α) (x : α) (e : Exc) (h : ∀ y ∈ a, ∃ z, f y = .ok z) (hx : f x = .raise e) :
    Res.mapM' f (a ++ x :: b) = .raise e := by
  induction a with
  | nil => simp [Res.mapM', hx]
  | cons y a ih =>
    obtain ⟨z, hz⟩ := h y (by simp)
    rw [List.cons_append, Res.mapM', hz, ih fun y hy => h y (by simp [hy])]

theorem range_split (n m : Nat) (h : m < n) : List.range n = List.range m ++ m :: (List.range (n - m - 1)).map (fun i => m + 1 + i) := by
  obtain ⟨k, rfl⟩ : ∃ k, n = m + 1 + k := ⟨n - m - 1, by omega⟩
  rw [List.range_add, List.range_succ, show m + 1 + k - m - 1 = k by omega]
  simp

/-- A text that announces more points than it lists cannot be read. -/
theorem parse_short (prec : Nat) (cm : Option Str) (num : Nat) (pts : List Kpoint)
    (hpts : ∀ p ∈ pts, p.coord.length = 3) (hlt : pts.length < num) {suf : Str} (hs : Eol suf) :
    parse ((explicitLinesN prec cm num pts none).map (· ++ suf)) = .raise .indexError := by
  unfold parse explicitLinesN
  have i0 : ∀ (a : Str) (l : List Str), idx (a :: l) 0 = .ok a := fun _ _ => rfl
  have i1 : ∀ (a b : Str) (l : List Str), idx (a :: b :: l) 1 = .ok b := fun _ _ _ => rfl
  have i2 : ∀ (a b c : Str) (l : List Str), idx (a :: b :: c :: l) 2 = .ok c := fun _ _ _ _ => rfl
  simp only [List.map_cons]
  rw [i0, i1, i2]
  simp only [Res.ok_bind]
  rw [hs.words, words_fmtInt, i0]
  simp only [Res.ok_bind]
  rw [toInt_intStr, hs.strip]
  have hD : idx (strip c!"Direct") 0 = .ok 'D' := by decide
  rw [hD]
  simp only [Res.ok_bind]
  have hpos : ¬ ((num : Int) ≤ 0) := by omega
  have hl : ¬ (lowerC 'D' = 'l') := by decide
  simp only [hpos, hl, decide_false, Bool.not_false, Bool.and_self, if_true, Bool.false_eq_true, if_false]
  unfold parseExplicit
  rw [if_neg (by decide)]
  dsimp only
  have hloop : Res.mapM' (fun k => idx ((c!"# " ++ shownComment cm ++ suf) :: (fmtInt 6 num ++ suf) :: (c!"Direct" ++ suf) ::
        (pts.map (fun p => floatLine prec (p.coord ++ [p.weight.getD 1])) ++ tetraLines prec none).map (· ++ suf)) (k + 3) >>= parsePoint)
      (List.range (num : Int).toNat) = .raise .indexError := by
    rw [Int.toNat_natCast, range_split num pts.length hlt]
    refine mapM'_stops _ _ _ _ _ ?_ ?_
    · intro y hy
      rw [List.mem_range] at hy
      refine ⟨Kpoint.rounded prec pts[y], ?_⟩
      have : idx ((c!"# " ++ shownComment cm ++ suf) :: (fmtInt 6 num ++ suf) :: (c!"Direct" ++ suf) ::
        (pts.map (fun p => floatLine prec (p.coord ++ [p.weight.getD 1])) ++ tetraLines prec none).map (· ++ suf)) (y + 3) =
          .ok (floatLine prec (pts[y].coord ++ [pts[y].weight.getD 1]) ++ suf) := by
        unfold idx tetraLines
        simp [hy]
      rw [this]
      exact parsePoint_line prec _ (hpts _ (List.getElem_mem hy)) hs
    · unfold idx tetraLines
      simp
  rw [hloop]
  rfl

/-- Specification: the text of an explicit list: comment, announced number, the word `Direct`, one line for each point. -/
def textOf (prec : Nat) (comment : Str) (announced : Nat) (ps : List Kpoint) : Str :=
  unlines ((c!"# " ++ comment) :: fmtInt 6 announced :: c!"Direct" :: ps.map fun p => floatLine prec (p.coord ++ [p.weight.getD 1]))

/-- C131: an explicit list of `n` points without tetrahedra (held by an object from any source), any history of `delete_point` and
`modify(.., point_number)` that runs to its end, leaving the points `l'`. The object can be written, the text announces `n` points and
lists `l'`, one fewer for each deletion. Without a deletion the text is read back as the points `l'`, rounded to the decimals printed; with
one or more, reading it raises `IndexError`, from string, path and handler. -/
theorem C131_edited (prec : Nat) (e : Entries) (cm : Option Str) (p : Parsed) (ps l' : List Kpoint) (hh : Holds e cm p) (hs : Sound p)
    (hm : p.mode = c!"explicit") (hp : p.points = some ps) (hn : p.num = ps.length) (hne : ps ≠ []) (ht : p.tetra = none)
    (hv : p.tetraVol = none) (hps : ∀ p ∈ ps, p.coord.length = 3) (hcm : OkComment cm) (cs : List Named) (hc : ∀ c ∈ cs, c.Allowed)
    (h3 : PutsThree cs) (hf : History ps (cs.map (·.edit)) (.done l')) :
    ∃ e', runNamed e cs = .ok e' ∧ write prec e' = .ok (textOf prec (shownComment cm) ps.length l') ∧
      l'.length + deletions cs = ps.length ∧
      ∀ s, FromText (textOf prec (shownComment cm) ps.length l') s →
        (deletions cs = 0 → ∃ e'', init s = .ok e'' ∧
          e''.get? c!"points" = some (atomsVal .point (l'.map fun k => ⟨k.coord.map (roundDec prec), some (roundDec prec (k.weight.getD 1)), true⟩))) ∧
        (deletions cs ≠ 0 → init s = .raise .indexError) := by
  obtain ⟨e', h1, h2, h4⟩ := C128_kpoints e ps (by rw [hh.points, hp]; rfl) ⟨_, hh.divisions⟩ cs hc _ hf
  obtain ⟨hlen, hthree⟩ := history_done cs hf
  have hpl := hthree h3 hps
  have hh' : Holds e' cm { p with points := some l' } := by
    constructor
    case points => exact h2
    all_goals rw [h4 _ (by decide)]
    · exact hh.comment
    · exact hh.divisions
    · exact hh.vectors
    · exact hh.shifts
    · exact hh.tetra
    · exact hh.volume
    · exact hh.mode
    · exact hh.centering
    · exact hh.num
  have hs' : Sound { p with points := some l' } := ⟨.inr (.inl (by simp)), hs.tetra, hs.centering, hs.mode⟩
  have hlines : explicitLinesN prec cm ps.length l' none = (c!"# " ++ shownComment cm) :: fmtInt 6 ps.length :: c!"Direct" ::
      l'.map fun p => floatLine prec (p.coord ++ [p.weight.getD 1]) := by
    unfold explicitLinesN tetraLines; simp
  have hw : write prec e' = .ok (textOf prec (shownComment cm) ps.length l') := by
    rw [write_explicitN prec e' cm _ l' none hh' hs' hm rfl (by simpa using ht) (by simpa using hv) hpl]
    show Res.ok (unlines (explicitLinesN prec cm p.num l' none)) = _
    rw [hn, hlines]; rfl
  refine ⟨e', h1, hw, hlen, fun s hfs => ⟨fun hd => ?_, fun hd => ?_⟩⟩
  · have hll : l'.length = ps.length := by omega
    have hne' : l' ≠ [] := by
      intro h; rw [h] at hll; exact hne (List.length_eq_zero_iff.1 hll.symm)
    obtain ⟨text, ht1, ht2⟩ := C21_explicit_round_trip prec e' cm _ l' none hh' hs' hm rfl (by rw [hll]; exact hn) hne'
      (by simpa using ht) (by simpa using hv) hpl hcm
    rw [hw] at ht1
    cases ht1
    obtain ⟨e'', h5, h6⟩ := ht2 s hfs
    exact ⟨e'', h5, h6.points⟩
  · have hlt : l'.length < ps.length := by omega
    have hfree : ∀ l ∈ explicitLinesN prec cm ps.length l' none, Free isLineBreak l := by
      intro l hl
      rw [hlines] at hl
      simp only [List.mem_cons, List.mem_map] at hl
      rcases hl with rfl | rfl | rfl | ⟨q, _, rfl⟩
      · exact Free.append_iff.2 ⟨by unfold Free; decide, (okComment_shown hcm).2.2⟩
      · exact fmtInt_noBreak 6 _
      · unfold Free; decide
      · exact floatLine_noBreak prec _
    obtain ⟨r1, r2⟩ := read_unlines _ hfree
    have e1 : fromList (readlines (textOf prec (shownComment cm) ps.length l')) = .raise .indexError := by
      unfold fromList textOf; rw [← hlines, r1, parse_short prec cm _ l' hpl hlt (.inr rfl)]; rfl
    have e2 : fromList (splitlines (textOf prec (shownComment cm) ps.length l')) = .raise .indexError := by
      unfold fromList textOf; rw [← hlines, r2, parse_short prec cm _ l' hpl hlt (.inl rfl)]; rfl
    rcases hfs with rfl | rfl | rfl
    · simp [init, guards, load, e2]
    · simp [init, guards, load, fromFile, e1]
    · simp [init, guards, load, fromFile, e1]

/-- Non-vacuity: of two points the last is replaced, then the first deleted. -/
example (a b k : Kpoint) : History [a, b] ([⟨c!"points", .replace (-1) k⟩, ⟨c!"points", .delete 0⟩] |>.map fun c : Named => c.edit) (.done [k]) ∧
    deletions [⟨c!"points", .replace (-1) k⟩, ⟨c!"points", .delete 0⟩] = 1 :=
  ⟨.cons (.replace [a] [] b k _ ⟨by simp, by simp⟩) (.cons (.delete [] [k] a _ ⟨by simp, by simp⟩) (.nil _)), rfl⟩

end Verif.Kpoints
