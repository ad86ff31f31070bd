import Verif.Props.OutputText
import Verif.Props.PoscarRound
import Verif.Lemmas.Exits
import Verif.Props.KpointsRound
/-!
# C118: writing to a file handler

`x.write(file_handler=f)` puts the text of `x` at the position of `f` and leaves what is in front of it alone; objects written one after
another stand one after another. False for a KPOINTS object in line mode followed by anything: it cuts its last newline with
`truncate`, which leaves the position one behind the end, so that a NUL character comes in between.
-/
set_option autoImplicit false
namespace Verif.Output
open Verif Verif.Base

/-! ### specification -/

/-- Specification: the text of an object, the one that `write(file_path=...)` puts in a file (C87, C88) and that is read back (C02, C15,
C21, C22, C23), or how writing it fails. -/
def Item.text : Item → Res Str
  | .incar b d => .ok (Incar.writeText b d)
  | .kpoints prec e => Kpoints.write prec e
  | .poscar prec c d e => Poscar.write prec c d e

/-- Specification: a KPOINTS object in line mode. -/
def Item.Line : Item → Prop
  | .kpoints _ e => e.get? c!"mode" = some (.atom (.str c!"line"))
  | _ => False

/-- Specification: the file is positioned at its end (as after opening or creating it) and not opened for appending. -/
def Out.AtEnd (o : Out) : Prop := o.append = false ∧ o.pos = o.text.length

/-! ### a sequence of writes -/

theorem write_append (o : Out) (a b : Str) : (o.write a).write b = o.write (a ++ b) := by
  obtain ⟨t, p, ap⟩ := o
  by_cases ha : a = []
  · subst ha; simp [Out.write]
  by_cases hb : b = []
  · subst hb; simp [Out.write, ha]
  cases ap
  · simp only [Out.write, if_neg ha, if_neg hb, if_neg (show ¬ (a ++ b = []) by simp [ha]), Bool.false_eq_true, if_false]
    have hl : (t.take p ++ List.replicate (p - t.length) (Char.ofNat 0)).length = p := by
      simp only [List.length_append, List.length_take, List.length_replicate]; omega
    have h1 : (t.take p ++ List.replicate (p - t.length) (Char.ofNat 0) ++ a).length = p + a.length := by
      rw [List.length_append, hl]
    generalize hX : t.take p ++ List.replicate (p - t.length) (Char.ofNat 0) ++ a = X at h1
    have h2 : (X ++ t.drop (p + a.length)).take (p + a.length) = X := by
      rw [← h1, List.take_left]
    have h3 : (X ++ t.drop (p + a.length)).drop (p + a.length + b.length) = t.drop (p + (a ++ b).length) := by
      rw [← h1, ← List.drop_drop, List.drop_left, h1, List.drop_drop, List.length_append, Nat.add_assoc]
    have h4 : p + a.length - (X ++ t.drop (p + a.length)).length = 0 := by
      rw [List.length_append, h1]; omega
    rw [h2, h3, h4, ← hX]
    simp [Nat.add_assoc]
  · simp [Out.write, ha, hb, Nat.add_assoc]

theorem foldl_write (o : Out) (l : List Str) : l.foldl Out.write o = o.write l.flatten := by
  induction l generalizing o with
  | nil => simp [Out.write]
  | cons a l ih => rw [List.foldl_cons, ih, write_append, List.flatten_cons]

theorem foldl_events (o : Out) (l : List Str) : (l.map (Event.write .handler)).foldl Out.apply o = l.foldl Out.write o := by
  rw [List.foldl_map]
  rfl

theorem writeTo_eq (w : Writer) (o : Out) : writeTo w o =
    (if w.chop && w.result.isOk then (o.write w.pieces.flatten).removeNewline else o.write w.pieces.flatten, w.result) := by
  unfold writeTo Base.write runWriter
  simp only [Option.isSome_none, Option.isSome_some, Bool.false_and, Bool.not_false, Bool.not_true, Bool.and_false, Bool.or_self,
    Bool.false_eq_true, if_false, List.foldl_append, foldl_events, foldl_write]
  split <;> simp [Out.apply]

/-! ### the three kinds of objects -/

theorem item_text (x : Item) : Files.Writes x.writer x.text := by
  cases x with
  | incar b d => exact Files.incarWriter_writes b d
  | kpoints prec e => exact kpointsWriter_writes prec e
  | poscar prec c d e => exact poscarWriter_writes prec c d e

theorem item_chop (x : Item) : x.writer.chop = true ↔ x.Line := by
  cases x with
  | incar b d => simp [Item.writer, Files.incarWriter, Item.Line]
  | kpoints prec e => simp [Item.writer, kpointsWriter, Item.Line]
  | poscar prec c d e => simp [Item.writer, poscarWriter, Item.Line]

theorem kpoints_pieces (prec : Nat) (e : Kpoints.Entries) (h : (kpointsProg prec e).2 = .ok ()) : (kpointsProg prec e).1.flatten ≠ [] := by
  unfold kpointsProg at h ⊢
  cases hv : Kpoints.validate e with
  | exit c => rw [hv] at h; cases h
  | raise x => rw [hv] at h; cases h
  | ok u =>
    rw [hv] at h
    simp only [after] at h ⊢
    cases hc : Kpoints.lookup e c!"comment" with
    | exit c => rw [hc] at h; cases h
    | raise x => rw [hc] at h; cases h
    | ok c =>
      rw [hc] at h
      simp only [seq, put]
      have : kpointsHead c ≠ [] := by unfold kpointsHead; split <;> simp
      simp [this]

/-- What the pieces are in terms of the text. -/
theorem item_pieces (x : Item) (t : Str) (h : x.text = .ok t) : x.writer.result = .ok () ∧
    (¬ x.Line → x.writer.chop = false ∧ x.writer.pieces.flatten = t) ∧
    (x.Line → x.writer.chop = true ∧ ∃ c, x.writer.pieces.flatten = t ++ [c]) := by
  have hw := item_text x
  rw [h] at hw
  obtain ⟨h1, h2⟩ := hw
  refine ⟨h1, fun hl => ?_, fun hl => ?_⟩
  · have hc : x.writer.chop = false := by
      cases hc : x.writer.chop with
      | false => rfl
      | true => exact absurd ((item_chop x).1 hc) hl
    rw [hc] at h2
    exact ⟨hc, by simpa using h2⟩
  · have hc := (item_chop x).2 hl
    rw [hc] at h2
    refine ⟨hc, ?_⟩
    have hne : x.writer.pieces.flatten ≠ [] := by
      cases x with
      | kpoints prec e => exact kpoints_pieces prec e h1
      | incar b d => exact absurd hl (by simp [Item.Line])
      | poscar prec c d e => exact absurd hl (by simp [Item.Line])
    exact ⟨_, by rw [← h2]; exact (List.dropLast_append_getLast hne).symm⟩

theorem write_inside (o : Out) (s : Str) (ha : o.append = false) (hp : o.pos ≤ o.text.length) :
    o.write s = { text := o.text.take o.pos ++ s ++ o.text.drop (o.pos + s.length), pos := o.pos + s.length } := by
  obtain ⟨t, p, ap⟩ := o
  simp only at ha hp
  subst ha
  unfold Out.write
  split
  · rename_i h; subst h; simp
  · have : p - t.length = 0 := by omega
    simp [this]

/-! ### the property -/

/-- C118, where the text goes (all objects but KPOINTS in line mode): the file holds what was in front of the position, the text, and
behind it what was there; the position is behind the text. Missing: KPOINTS in line mode, whose text goes elsewhere (`C118_violation`). -/
theorem C118_position_partial (x : Item) (t : Str) (o : Out) (h : x.text = .ok t) (hl : ¬ x.Line) (ha : o.append = false)
    (hp : o.pos ≤ o.text.length) :
    writeTo x.writer o = ({ text := o.text.take o.pos ++ t ++ o.text.drop (o.pos + t.length), pos := o.pos + t.length }, .ok ()) := by
  obtain ⟨h1, h2, -⟩ := item_pieces x t h
  obtain ⟨h2, h3⟩ := h2 hl
  rw [writeTo_eq, h2, h1, h3]
  simp [write_inside o t ha hp]

/-- C118, KPOINTS in line mode: the file ends with the text, whatever was behind the position is lost, and the position is one behind the
end. -/
theorem C118_line (x : Item) (t : Str) (o : Out) (h : x.text = .ok t) (hl : x.Line) (ha : o.append = false) (hp : o.pos ≤ o.text.length) :
    writeTo x.writer o = ({ text := o.text.take o.pos ++ t, pos := o.pos + t.length + 1 }, .ok ()) := by
  obtain ⟨h1, -, h2⟩ := item_pieces x t h
  obtain ⟨h2, c, h3⟩ := h2 hl
  rw [writeTo_eq, h2, h1, h3]
  simp only [Res.isOk, Bool.and_self, if_true, write_inside o (t ++ [c]) ha hp, Out.removeNewline, Out.truncate, Prod.mk.injEq, and_true]
  have hlen : (o.text.take o.pos ++ t).length = o.pos + (t ++ [c]).length - 1 := by
    simp only [List.length_append, List.length_take, List.length_cons, List.length_nil]; omega
  rw [← hlen]
  simp only [← List.append_assoc]
  rw [List.append_assoc (o.text.take o.pos ++ t), List.take_left]
  simp [Nat.add_assoc]

/-- C118, at the end of the file: every object ends up behind what was there, and only there. -/
theorem C118_end (x : Item) (t : Str) (o : Out) (h : x.text = .ok t) (ho : o.AtEnd) :
    (writeTo x.writer o).2 = .ok () ∧ (writeTo x.writer o).1.text = o.text ++ t := by
  obtain ⟨ha, hp⟩ := ho
  by_cases hl : x.Line
  · rw [C118_line x t o h hl ha (le_of_eq hp), hp]
    simp
  · rw [C118_position_partial x t o h hl ha (le_of_eq hp), hp]
    simp

/-- C118, files opened for appending: every object, in line mode too, ends up behind what was there. -/
theorem C118_append (x : Item) (t : Str) (o : Out) (h : x.text = .ok t) (ho : o.append = true) :
    (writeTo x.writer o).2 = .ok () ∧ (writeTo x.writer o).1.text = o.text ++ t ∧ (writeTo x.writer o).1.append = true := by
  obtain ⟨h1, h2, h3⟩ := item_pieces x t h
  by_cases hl : x.Line
  · obtain ⟨h3, c, h4⟩ := h3 hl
    rw [writeTo_eq, h3, h1, h4]
    simp only [Res.isOk, Bool.and_self, if_true]
    have : t ++ [c] ≠ [] := by simp
    simp only [Out.write, if_neg this, ho, if_true, Out.removeNewline, Out.truncate, true_and, and_true]
    have : o.text.length + (t ++ [c]).length - 1 = (o.text ++ t).length := by simp
    rw [this, ← List.append_assoc, List.take_left]
  · obtain ⟨h2, h4⟩ := h2 hl
    rw [writeTo_eq, h2, h1, h4]
    simp only [Bool.false_and, Bool.false_eq_true, if_false, true_and]
    unfold Out.write
    split
    · rename_i ht; subst ht; simp [ho]
    · simp [ho]

/-- C118, several objects in one file: they stand one after another, if none but the last is a KPOINTS in line mode. Missing: those
(`C118_violation`). -/
theorem C118_sequence_partial (xs : List Item) (ts : List Str) (o : Out) (h : List.Forall₂ (fun x t => x.text = .ok t) xs ts) (ho : o.AtEnd)
    (hl : ∀ x ∈ xs.dropLast, ¬ x.Line) : (writeAll xs o).2 = .ok () ∧ (writeAll xs o).1.text = o.text ++ ts.flatten := by
  induction h generalizing o with
  | nil => simp [writeAll]
  | @cons x t xs ts hx hr ih =>
    cases hr with
    | nil =>
      obtain ⟨h1, h2⟩ := C118_end x t o hx ho
      unfold writeAll
      split
      · rename_i o' he
        rw [he] at h2
        simpa [writeAll] using h2
      · rename_i r hne
        exact absurd (Prod.ext rfl h1 : writeTo x.writer o = ((writeTo x.writer o).1, .ok ())) (hne _)
    | @cons y u ys us hy hr =>
      have hnl : ¬ x.Line := hl x (by simp)
      have he := C118_position_partial x t o hx hnl ho.1 (le_of_eq ho.2)
      rw [writeAll, he]
      simp only
      have hend : Out.AtEnd { text := o.text.take o.pos ++ t ++ o.text.drop (o.pos + t.length), pos := o.pos + t.length } := by
        refine ⟨rfl, ?_⟩
        simp [ho.2]
      obtain ⟨i1, i2⟩ := ih _ hend (fun z hz => hl z (by simp [List.dropLast] at hz ⊢; exact .inr hz))
      refine ⟨i1, ?_⟩
      rw [i2]
      simp [ho.2]

/-- C118, several objects in one file opened for appending: they stand one after another, in all cases. -/
theorem C118_sequence_append (xs : List Item) (ts : List Str) (o : Out) (h : List.Forall₂ (fun x t => x.text = .ok t) xs ts)
    (ho : o.append = true) : (writeAll xs o).2 = .ok () ∧ (writeAll xs o).1.text = o.text ++ ts.flatten := by
  induction h generalizing o with
  | nil => simp [writeAll]
  | @cons x t xs ts hx hr ih =>
    obtain ⟨h1, h2, h3⟩ := C118_append x t o hx ho
    unfold writeAll
    split
    · rename_i o' he
      rw [he] at h2 h3
      obtain ⟨i1, i2⟩ := ih o' h3
      refine ⟨i1, ?_⟩
      rw [i2]
      simp only at h2
      rw [h2]
      simp
    · rename_i r hne
      exact absurd (Prod.ext rfl h1 : writeTo x.writer o = ((writeTo x.writer o).1, .ok ())) (hne _)

theorem write_behind (o : Out) (s : Str) (ha : o.append = false) (hp : o.pos = o.text.length + 1) (hs : s ≠ []) :
    o.write s = { text := o.text ++ [Char.ofNat 0] ++ s, pos := o.text.length + 1 + s.length } := by
  obtain ⟨t, p, ap⟩ := o
  simp only at ha hp
  subst ha; subst hp
  have h1 : t.take (t.length + 1) = t := List.take_of_length_le (by omega)
  have h2 : t.drop (t.length + 1 + s.length) = [] := List.drop_eq_nil_of_le (by omega)
  have h3 : t.length + 1 - t.length = 1 := by omega
  simp [Out.write, hs, h1, h2, h3]

/-- C118 is false for a KPOINTS object in line mode followed by any other object with a text: a NUL character comes in between, in every
file. -/
theorem C118_violation (x y : Item) (t u : Str) (o : Out) (hx : x.text = .ok t) (hl : x.Line) (hy : y.text = .ok u) (hu : u ≠ [])
    (ho : o.AtEnd) : (writeAll [x, y] o).2 = .ok () ∧ (writeAll [x, y] o).1.text = o.text ++ t ++ [Char.ofNat 0] ++ u := by
  have he := C118_line x t o hx hl ho.1 (le_of_eq ho.2)
  have hb : ∀ s : Str, s ≠ [] → Out.write { text := o.text.take o.pos ++ t, pos := o.pos + t.length + 1 } s =
      { text := o.text ++ t ++ [Char.ofNat 0] ++ s, pos := (o.text ++ t).length + 1 + s.length } := by
    intro s hs
    rw [write_behind _ s rfl (by simp [ho.2]) hs]
    simp [ho.2]
  obtain ⟨h1, h2, h3⟩ := item_pieces y u hy
  have hw : writeTo y.writer { text := o.text.take o.pos ++ t, pos := o.pos + t.length + 1 } =
      ((writeTo y.writer { text := o.text.take o.pos ++ t, pos := o.pos + t.length + 1 }).1, .ok ()) := by
    rw [writeTo_eq, h1]
  rw [writeAll, he]
  simp only
  rw [writeAll, hw]
  simp only [writeAll, true_and]
  rw [writeTo_eq]
  by_cases hyl : y.Line
  · obtain ⟨h3, c, h4⟩ := h3 hyl
    rw [h3, h1, h4]
    simp only [Res.isOk, Bool.and_self, if_true, hb (u ++ [c]) (by simp), Out.removeNewline, Out.truncate]
    have : (o.text ++ t).length + 1 + (u ++ [c]).length - 1 = (o.text ++ t ++ [Char.ofNat 0] ++ u).length := by simp; omega
    rw [this, ← List.append_assoc, List.take_left]
  · obtain ⟨h2, h4⟩ := h2 hyl
    rw [h2, h4]
    simp [hb u hu]

/-! ### failures -/

/-- Exits only before anything is written. -/
def ExitsFirst (p : Prog) : Prop := ∀ c, p.2 = .exit c → p.1 = []

/-- Never exits. -/
def NoExit (p : Prog) : Prop := ∀ c, p.2 ≠ .exit c

abbrev Never : Nat → Prop := fun _ => False

theorem exitsFirst_after {α : Type} (r : Res α) (f : α → Prog) (h : ∀ a, ExitsFirst (f a)) : ExitsFirst (after r f) := by
  cases r with
  | ok a => exact h a
  | exit c => intro _ _; rfl
  | raise e => intro c hc; cases hc

theorem NoExit.first {p : Prog} (h : NoExit p) : ExitsFirst p := fun c hc => absurd hc (h c)

theorem noExit_after {α : Type} (r : Res α) (f : α → Prog) (hr : ExitsIn Never r) (h : ∀ a, NoExit (f a)) : NoExit (after r f) := by
  cases r with
  | ok a => exact h a
  | exit c => exact absurd (hr.of c rfl) id
  | raise e => intro c hc; cases hc

theorem noExit_seq {a b : Prog} (ha : NoExit a) (hb : NoExit b) : NoExit (seq a b) := by
  intro c hc
  unfold seq at hc
  split at hc
  · exact hb c hc
  · rename_i h; exact ha _ h
  · cases hc

theorem noExit_put (s : Str) : NoExit (put s) := by intro c hc; cases hc
theorem noExit_skip : NoExit skip := by intro c hc; cases hc
theorem noExit_raise (l : List Str) (e : Exc) : NoExit (l, .raise e) := by intro c hc; cases hc

theorem noExit_each {α : Type} (f : α → Res Str) (l : List α) (hf : ∀ a, ExitsIn Never (f a)) : NoExit (each f l) := by
  induction l with
  | nil => exact noExit_skip
  | cons a l ih => exact noExit_after _ _ (hf a) fun s => noExit_seq (noExit_put s) ih

theorem kLookup (e : Kpoints.Entries) (k : Str) : ExitsIn Never (Kpoints.lookup e k) := by unfold Kpoints.lookup; exits
theorem kIdx {α : Type} (l : List α) (n : Nat) : ExitsIn Never (Kpoints.idx l n) := by unfold Kpoints.idx; exits
theorem kThree {α : Type} (l : List α) : ExitsIn Never (Kpoints.three l) := by
  unfold Kpoints.three
  exact ExitsIn.bind (kIdx _ _) fun _ => ExitsIn.bind (kIdx _ _) fun _ => ExitsIn.bind (kIdx _ _) fun _ => ExitsIn.ok _
theorem kPoint (prec : Nat) (p : Kpoints.Elem) : ExitsIn Never (Kpoints.writePoint prec p) := by
  unfold Kpoints.writePoint
  split
  · exact ExitsIn.bind (kThree _) fun _ => ExitsIn.ok _
  · exact ExitsIn.raise _
theorem kLinePoint (prec : Nat) (p : Kpoints.Elem) : ExitsIn Never (Kpoints.writeLinePoint prec p) := by
  unfold Kpoints.writeLinePoint
  split
  · exact ExitsIn.bind (kThree _) fun _ => ExitsIn.ok _
  · exact ExitsIn.raise _
theorem kInt (x : Kpoints.Elem) : ExitsIn Never (Kpoints.intElem x) := by unfold Kpoints.intElem; exits
theorem kFloat (x : Kpoints.Elem) : ExitsIn Never (Kpoints.floatElem x) := by unfold Kpoints.floatElem; exits
theorem kFloats (x : Kpoints.Elem) : ExitsIn Never (Kpoints.floatElems x) := by
  have := @kThree
  unfold Kpoints.floatElems
  exits
theorem kTetra (x : Kpoints.Elem) : ExitsIn Never (Kpoints.tetraInts x) := by unfold Kpoints.tetraInts; exits
theorem kShifts (prec : Nat) (v : Kpoints.Val) : ExitsIn Never (Kpoints.writeShifts prec v) := by
  unfold Kpoints.writeShifts
  split
  · exact ExitsIn.bind (kThree _) fun _ => ExitsIn.bind (ExitsIn.mapM' kFloat _) fun _ => ExitsIn.ok _
  · exact ExitsIn.ok _

theorem noExit_explicit (prec : Nat) (e : Kpoints.Entries) : NoExit (explicitProg prec e) := by
  refine noExit_after _ _ (kLookup e _) fun n => ?_
  split
  · refine noExit_seq (noExit_put _) (noExit_seq (noExit_put _) (noExit_after _ _ (kLookup e _) fun pts => noExit_seq ?_
      (noExit_after _ _ (kLookup e _) fun t => ?_)))
    · unfold eachPoint
      split
      · exact noExit_each _ _ (kPoint prec)
      · exact noExit_skip
      · exact noExit_raise _ _
      · exact noExit_raise _ _
    · unfold tetraProg
      split
      · refine noExit_seq (noExit_put _) (noExit_after _ _ (kLookup e _) fun vol => ?_)
        split
        · exact noExit_seq (noExit_put _) (noExit_each _ _ fun r => ExitsIn.bind (kTetra r) fun _ => ExitsIn.ok _)
        · exact noExit_raise _ _
      · exact noExit_skip
  · exact noExit_raise _ _

theorem noExit_automatic (prec : Nat) (e : Kpoints.Entries) : NoExit (automaticProg prec e) := by
  refine noExit_seq (noExit_put _) (noExit_after _ _ (kLookup e _) fun n => ?_)
  split
  · refine noExit_seq (noExit_put _) (noExit_after _ _ (kLookup e _) fun d => noExit_seq ?_ (noExit_after _ _ (kLookup e _) fun g =>
      noExit_seq ?_ (noExit_after _ _ (kLookup e _) fun sh => noExit_after _ _ (kShifts prec sh) noExit_put)))
    · unfold divisionsProg
      split
      · exact noExit_after _ _ (ExitsIn.bind (kThree _) fun _ => ExitsIn.mapM' kInt _) fun _ => noExit_put _
      · exact noExit_skip
    · unfold vectorsProg
      split
      · exact noExit_each _ _ fun r => ExitsIn.bind (kFloats r) fun _ => ExitsIn.ok _
      · exact noExit_skip
  · exact noExit_raise _ _

theorem noExit_linePoints (prec : Nat) (b : Bool) (l : List Kpoints.Elem) : NoExit (linePoints prec b l) := by
  induction l generalizing b with
  | nil => exact noExit_skip
  | cons p l ih =>
    refine noExit_after _ _ (kLinePoint prec p) fun s => noExit_seq (noExit_put s) (noExit_seq ?_ (ih _))
    split
    · exact noExit_put _
    · exact noExit_skip

theorem noExit_line (prec : Nat) (e : Kpoints.Entries) : NoExit (lineProg prec e) := by
  refine noExit_after _ _ (kLookup e _) fun n => ?_
  split
  · refine noExit_seq (noExit_put _) (noExit_seq (noExit_put _) (noExit_seq (noExit_put _) (noExit_after _ _ (kLookup e _) fun pts => ?_)))
    split
    · exact noExit_linePoints _ _ _
    · exact noExit_skip
    · exact noExit_raise _ _
    · exact noExit_raise _ _
  · exact noExit_raise _ _

theorem exitsFirst_kpoints (prec : Nat) (e : Kpoints.Entries) : ExitsFirst (kpointsProg prec e) := by
  refine exitsFirst_after _ _ fun _ => exitsFirst_after _ _ fun c => NoExit.first ?_
  refine noExit_seq (noExit_put _) (noExit_after _ _ (kLookup e _) fun m => ?_)
  split
  · exact noExit_explicit prec e
  split
  · exact noExit_automatic prec e
  split
  · exact noExit_line prec e
  · exact noExit_skip

theorem noExit_sites (prec : Nat) (direct : Bool) (c : Poscar.Cell) (sel : Bool) (l : List Poscar.Site) :
    NoExit (sitesProg prec direct c sel l) := by
  induction l with
  | nil => exact noExit_skip
  | cons s l ih =>
    refine noExit_seq (noExit_seq (noExit_put _) (noExit_seq ?_ (noExit_put _))) ih
    split
    · exact noExit_put _
    · exact noExit_skip

theorem exitsFirst_poscar (prec : Nat) (conserve direct : Bool) (e : Poscar.Entries) : ExitsFirst (poscarProg prec conserve direct e) := by
  refine exitsFirst_after _ _ fun _ => exitsFirst_after _ _ fun c => exitsFirst_after _ _ fun cell => exitsFirst_after _ _ fun g => ?_
  split
  · refine NoExit.first ?_
    have hv : ∀ c s, ExitsIn Never (Poscar.velLine prec direct c s) := by intro c s; unfold Poscar.velLine; exits
    have hp : ∀ s, ExitsIn Never (Poscar.predLine prec s) := by intro s; unfold Poscar.predLine; exits
    unfold groupedProg
    simp only
    refine noExit_seq (noExit_put _) (noExit_seq (noExit_put _) (noExit_seq (noExit_put _) (noExit_seq (noExit_put _) (noExit_seq (noExit_put _)
      (noExit_seq (noExit_put _) (noExit_seq (noExit_put _) (noExit_seq ?_ (noExit_seq (noExit_put _) (noExit_seq (noExit_sites _ _ _ _ _)
      (noExit_seq ?_ ?_))))))))))
    · split
      · exact noExit_put _
      · exact noExit_skip
    · split
      · exact noExit_seq (noExit_put _) (noExit_each _ _ fun s => ExitsIn.bind (hv _ s) fun _ => ExitsIn.ok _)
      · exact noExit_skip
    · split
      · exact noExit_seq (noExit_put _) (noExit_each _ _ fun s => ExitsIn.bind (hp s) fun _ => ExitsIn.ok _)
      · exact noExit_skip
  · intro c hc; cases hc

/-- C118, documented failures: a call that ends with an exit code has not touched the file, its position included. -/
theorem C118_refused (x : Item) (o : Out) (c : Nat) (h : (writeTo x.writer o).2 = .exit c) : (writeTo x.writer o).1 = o := by
  have hp : x.writer.pieces = [] := by
    have hr : x.writer.result = .exit c := by rw [writeTo_eq] at h; exact h
    cases x with
    | incar b d => cases hr
    | kpoints prec e => exact exitsFirst_kpoints prec e c hr
    | poscar prec cs d e => exact exitsFirst_poscar prec cs d e c hr
  rw [writeTo_eq] at h ⊢
  simp only at h
  rw [h, hp]
  simp [Res.isOk, Out.write]

theorem chop_pieces (x : Item) (hc : x.writer.chop = true) (hr : x.writer.result = .ok ()) : x.writer.pieces.flatten ≠ [] := by
  have hl := (item_chop x).1 hc
  cases x with
  | kpoints prec e => exact kpoints_pieces prec e hr
  | incar b d => exact absurd hl (by simp [Item.Line])
  | poscar prec c d e => exact absurd hl (by simp [Item.Line])

/-- C118, what stands in front of the position stays, however the call ends: with any exit code, any exception, or normally; for every
object. -/
theorem C118_keeps (x : Item) (o : Out) (ha : o.append = false) (hp : o.pos ≤ o.text.length) :
    (writeTo x.writer o).1.text.take o.pos = o.text.take o.pos ∧ o.pos ≤ (writeTo x.writer o).1.text.length := by
  have hw : ∀ s : Str, (o.write s).text.take o.pos = o.text.take o.pos ∧ o.pos ≤ (o.write s).text.length := by
    intro s
    rw [write_inside o s ha hp]
    have : (o.text.take o.pos).length = o.pos := by rw [List.length_take]; omega
    constructor
    · simp only
      rw [List.append_assoc, List.take_append_of_le_length (by omega)]
      exact List.take_of_length_le (by omega)
    · simp only [List.length_append]; omega
  rw [writeTo_eq]
  simp only
  split
  · rename_i h
    simp only [Bool.and_eq_true] at h
    have hr : x.writer.result = .ok () := by
      cases hr : x.writer.result with
      | ok u => rfl
      | exit c => rw [hr] at h; cases h.2
      | raise c => rw [hr] at h; cases h.2
    have hne := chop_pieces x h.1 hr
    have hpos : 0 < x.writer.pieces.flatten.length := List.length_pos_of_ne_nil hne
    obtain ⟨h1, h2⟩ := hw x.writer.pieces.flatten
    have hq : (o.write x.writer.pieces.flatten).pos = o.pos + x.writer.pieces.flatten.length := by rw [write_inside o _ ha hp]
    simp only [Out.removeNewline, Out.truncate, hq, List.take_take]
    rw [Nat.min_eq_left (by omega)]
    refine ⟨h1, ?_⟩
    rw [List.length_take]
    omega
  · exact hw _

/-- C118, files opened for appending: what is there stays, however the call ends. -/
theorem C118_keeps_append (x : Item) (o : Out) (ha : o.append = true) : o.text <+: (writeTo x.writer o).1.text := by
  have hw : ∀ s : Str, o.text <+: (o.write s).text ∧ (s ≠ [] → (o.write s).pos = o.text.length + s.length) := by
    intro s
    unfold Out.write
    split
    · exact ⟨List.prefix_rfl, fun h => absurd ‹s = []› h⟩
    · simp [ha]
  rw [writeTo_eq]
  simp only
  split
  · rename_i h
    simp only [Bool.and_eq_true] at h
    have hr : x.writer.result = .ok () := by
      cases hr : x.writer.result with
      | ok u => rfl
      | exit c => rw [hr] at h; cases h.2
      | raise c => rw [hr] at h; cases h.2
    have hne := chop_pieces x h.1 hr
    have hpos : 0 < x.writer.pieces.flatten.length := List.length_pos_of_ne_nil hne
    simp only [Out.removeNewline, Out.truncate, (hw _).2 hne]
    exact List.prefix_take_iff.2 ⟨(hw _).1, by omega⟩
  · exact (hw _).1

/-! ### reading back -/

/-- C118, INCAR: what was put behind the end of a file is, read from where it starts, the object again. -/
theorem C118_back_incar (F : FloatEnv) (b : Bool) (d : Incar.Entries) (o : Out) (hk : d.keys.Nodup)
    (hd : ∀ e ∈ d, e.1 = e.2.tag ∧ Incar.StorableItem F e.2) (ho : o.AtEnd) :
    ∃ d', Incar.init F [] false { handler := some ((writeTo (Item.incar b d).writer o).1.text.drop o.pos) } = .ok d' ∧
      (∀ t, Incar.get d' t = Incar.get d t) ∧
      (b = true → ∀ t, (d'.get? t).map Incar.Item.comment = (d.get? t).map Incar.Item.comment) := by
  obtain ⟨d', h1, h2, h3⟩ := Incar.C02_round_trip F b d hk hd
  refine ⟨d', ?_, h2, h3⟩
  rw [(C118_end (.incar b d) _ o rfl ho).2, ho.2, List.drop_left]
  simp [Incar.init, Incar.tooMany, Incar.noneGiven, Incar.loadEntries, Incar.fileLines, Incar.parseSource, h1, Incar.validate]

/-- C118, POSCAR: what was put behind the end of a file is, read from where it starts, the structure again, up to the rounding of the
print. -/
theorem C118_back_poscar (prec : Nat) (conserve direct : Bool) (e : Poscar.Entries) (cm : Option Str) (c : Poscar.Cell)
    (sites : List Poscar.Site) (o : Out) (hh : Poscar.Holds e cm c sites) (hpr : Poscar.Printable cm sites)
    (hc : Poscar.CellOk prec direct c) (ho : o.AtEnd) (hw : (writeTo (Item.poscar prec conserve direct e).writer o).2 = .ok ()) :
    ∃ g e' cm' sites', Poscar.sortAndGroup conserve e = .ok g ∧
      Poscar.init { handler := some ((writeTo (Item.poscar prec conserve direct e).writer o).1.text.drop o.pos) } = .ok e' ∧
      Poscar.Holds e' (some cm') (Poscar.roundM prec c) sites' ∧ sites'.length = g.sites.length ∧
      ∀ (k : Nat) (s s' : Poscar.Site), g.sites[k]? = some s → sites'[k]? = some s' → Poscar.SameSite prec direct c s s' := by
  have hr : (Item.poscar prec conserve direct e).writer.result = .ok () := by rw [writeTo_eq] at hw; exact hw
  have hx := item_text (.poscar prec conserve direct e)
  cases ht : (Item.poscar prec conserve direct e).text with
  | ok t =>
    obtain ⟨g, e', cm', sites', h1, h2, h3, h4, h5⟩ := Poscar.C15_round_trip prec conserve direct e cm c sites t hh hpr hc ht
    refine ⟨g, e', cm', sites', h1, ?_, h3, h4, h5⟩
    rw [(C118_end _ t o ht ho).2, ho.2, List.drop_left]
    exact h2.handler
  | exit k => rw [ht] at hx; have hx := hr.symm.trans hx; cases hx
  | raise k => rw [ht] at hx; have hx := hr.symm.trans hx; cases hx

/-! ### concrete cases -/

/-- A KPOINTS object in line mode, an INCAR and a POSCAR object. -/
def somePath : Item := .kpoints 2 Kpoints.examplePath.toEntries
def someIncar : Item := .incar true [(c!"nsw", ⟨c!"nsw", .one (.int 3), some c!"steps"⟩)]
def somePoscar : Item := .poscar 2 false false Poscar.fullEntries

example : somePath.Line ∧ ¬ someIncar.Line ∧ ¬ somePoscar.Line := by
  refine ⟨?_, id, id⟩
  show _ = _
  decide +kernel

def okText (r : Res Str) : Str := match r with | .ok t => t | _ => []

example : somePath.text = .ok (okText somePath.text) ∧ someIncar.text = .ok c!"NSW = 3 # steps\n" ∧
    (∃ t, somePoscar.text = .ok t ∧ 100 < t.length) := by
  refine ⟨by decide +kernel, by decide +kernel, okText somePoscar.text, by decide +kernel, by decide +kernel⟩

example : (writeAll [someIncar, someIncar] ⟨c!"old\n", 4, false⟩).1.text = c!"old\nNSW = 3 # steps\nNSW = 3 # steps\n" := by
  decide +kernel

example : (writeAll [somePath, someIncar] ⟨c!"old\n", 4, false⟩).1.text = c!"old\n" ++ okText somePath.text ++ [Char.ofNat 0] ++ c!"NSW = 3 # steps\n" := by
  decide +kernel

example : (writeAll [somePath, someIncar] ⟨c!"old\n", 0, true⟩).1.text = c!"old\n" ++ okText somePath.text ++ c!"NSW = 3 # steps\n" := by
  decide +kernel

/-- Overwriting in the middle of a longer file. -/
example : (writeTo someIncar.writer ⟨c!"0123456789012345678901234567890", 2, false⟩).1.text = c!"01NSW = 3 # steps\n8901234567890" := by
  decide +kernel

/-- A refused object: a mode there is not. -/
example : writeTo (Item.kpoints 2 (Kpoints.examplePath.toEntries.set c!"mode" (.atom (.str c!"mesh")))).writer ⟨c!"old", 1, false⟩ =
    (⟨c!"old", 1, false⟩, .exit 213) := by
  decide +kernel

end Verif.Output
