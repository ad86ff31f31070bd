import Verif.Lemmas.Raises
import Verif.Props.IncarExact
import Verif.Props.CountsKpoints
import Verif.Model.DoscarFull
import Verif.Model.EigenvalFull
import Verif.Model.ChgcarFull
import Verif.Model.Potcar
import Verif.Model.Outcar
import Verif.Model.PoscarCounts
/-! # Which exceptions escape from reading a file (C127) -/
set_option autoImplicit false
namespace Verif.Exceptions
open Verif Verif.Utils

/-- Reading lets exactly these exceptions escape: no other, and each of them for some text. `outOfModel` is no exception but marks texts the model does not describe. -/
structure Escapes {ι α : Type} (call : ι → Res α) (excs : List Exc) : Prop where
  only : ∀ i e, call i = .raise e → e ≠ .outOfModel → e ∈ excs
  all : ∀ e ∈ excs, ∃ i, call i = .raise e

/-- The exceptions of the list, and texts that are not described. -/
abbrev Among (excs : List Exc) (e : Exc) : Prop := e ∈ Exc.outOfModel :: excs

theorem Escapes.mk' {ι α : Type} {call : ι → Res α} {excs : List Exc} (h : ∀ i, RaisesIn (Among excs) (call i)) (h' : ∀ e ∈ excs, ∃ i, call i = .raise e) :
    Escapes call excs := by
  refine ⟨fun i e he hn => ?_, h'⟩
  rcases List.mem_cons.1 ((h i).of e he) with h | h
  · exact absurd h hn
  · exact h

section Readers
variable {S : Exc → Prop}

theorem idx' {α : Type} (h : S .indexError) (l : List α) (i : Nat) : RaisesIn S (Kpoints.idx l i) := by
  unfold Kpoints.idx
  split
  · exact .ok _
  · exact .raise h

theorem toInt' (h : S .valueError) (w : Str) : RaisesIn S (Kpoints.toInt w) := by
  unfold Kpoints.toInt
  split
  · exact .ok _
  · exact .raise h

theorem toFloat' (h : S .valueError) (h' : S .outOfModel) (w : Str) : RaisesIn S (Kpoints.toFloat w) := by
  unfold Kpoints.toFloat
  split
  · exact .ok _
  · exact .raise h'
  · exact .raise h

theorem toNum' (h : S .valueError) (w : Str) : RaisesIn S (toNum w) := by
  unfold toNum
  split
  · exact .ok _
  · exact .ok _
  · exact .ok _
  · exact .raise h

theorem lineToType' {α : Type} {f : Str → Res α} (hf : ∀ w, RaisesIn S (f w)) (l : Str) : RaisesIn S (lineToType f l) := by
  unfold lineToType
  have h := RaisesIn.mapM' hf (words l)
  cases hr : Res.mapM' f (words l) with
  | ok r => rcases r with _ | ⟨a, _ | ⟨b, r⟩⟩ <;> exact RaisesIn.ok _
  | raise k => exact RaisesIn.raise (h.of k hr)
  | exit e => exact RaisesIn.exit _

theorem unpack' {α : Type} (h : S .valueError) (h' : S .typeError) (n : Nat) (x : OneOrMany α) : RaisesIn S (Doscar.unpack n x) := by
  unfold Doscar.unpack
  split
  · exact .ite (.ok _) (.raise h)
  · exact .raise h'

theorem cartesian' (h : S .attributeError) (x : OneOrMany Str) : RaisesIn S (Doscar.cartesianOf x) := by
  unfold Doscar.cartesianOf
  split
  · exact .ok _
  · exact .raise h

end Readers

/-! ### DOSCAR -/

/-- What a broken DOSCAR can raise. -/
def doscarExcs : List Exc := [.indexError, .valueError, .typeError, .keyError, .attributeError, .overflowError]

section Doscar
open DoscarFull

theorem asRows' (n : Nat) (l : List (OneOrMany Num)) : RaisesIn (· ∈ doscarExcs) (asRows n l) := by
  induction l with
  | nil => exact RaisesIn.ok _
  | cons a l ih => cases a <;> unfold asRows <;> raises

theorem asBlocks' (n m : Nat) (l : List (List (OneOrMany Num))) : RaisesIn (· ∈ doscarExcs) (asBlocks n m l) := by
  induction l with
  | nil => exact RaisesIn.ok _
  | cons a l ih =>
    have h := asRows' n a
    unfold asBlocks; raises

theorem doscar_list (b : Bool) (lines : List Str) : RaisesIn (· ∈ doscarExcs) (DoscarFull.fromList b lines) := by
  have i1 : ∀ (l : List Str) i, RaisesIn (· ∈ doscarExcs) (Kpoints.idx l i) := idx' (by decide)
  have i2 : ∀ (l : List (OneOrMany Num)) i, RaisesIn (· ∈ doscarExcs) (Kpoints.idx l i) := idx' (by decide)
  have i3 : ∀ l, RaisesIn (· ∈ doscarExcs) (lineToType toNum l) := lineToType' (toNum' (by decide))
  have i4 : ∀ l, RaisesIn (· ∈ doscarExcs) (lineToType Kpoints.toInt l) := lineToType' (toInt' (by decide))
  have i5 : ∀ l, RaisesIn (· ∈ doscarExcs) (lineToType (α := Str) Res.ok l) := lineToType' fun _ => RaisesIn.ok _
  have i6 : ∀ n (x : OneOrMany Int), RaisesIn (· ∈ doscarExcs) (Doscar.unpack n x) := unpack' (by decide) (by decide)
  have i7 : ∀ n (x : OneOrMany Num), RaisesIn (· ∈ doscarExcs) (Doscar.unpack n x) := unpack' (by decide) (by decide)
  have i8 : ∀ x, RaisesIn (· ∈ doscarExcs) (Doscar.cartesianOf x) := cartesian' (by decide)
  have i9 : ∀ n l, RaisesIn (· ∈ doscarExcs) (asRows n l) := asRows'
  have i10 : ∀ n m l, RaisesIn (· ∈ doscarExcs) (asBlocks n m l) := asBlocks'
  have i11 : ∀ x, RaisesIn (· ∈ doscarExcs) (lenOf x) := by intro x; unfold lenOf; raises
  have i16 : ∀ (l : List (OneOrMany Num)) i, RaisesIn (· ∈ doscarExcs) (idxZ l i) := by intro l i; unfold idxZ; raises
  have i17 : ∀ x, RaisesIn (· ∈ doscarExcs) (truncNum x) := by intro x; unfold truncNum; raises
  have i12 : ∀ d n, RaisesIn (· ∈ doscarExcs) (totalDos d n) := by intro d n; unfold totalDos; raises
  have i13 : ∀ n b, RaisesIn (· ∈ doscarExcs) (Doscar.getNumSpin n b) := by
    clear i1 i2 i3 i4 i5 i6 i7 i8 i9 i10 i11 i12 i16 i17; intro n b; unfold Doscar.getNumSpin; raises
  have i14 : ∀ n b, RaisesIn (· ∈ doscarExcs) (Doscar.getDtypePdos n b) := by
    clear i1 i2 i3 i4 i5 i6 i7 i8 i9 i10 i11 i12 i13 i16 i17; intro n b; unfold Doscar.getDtypePdos; raises
  have i15 : ∀ b h d n k, RaisesIn (· ∈ doscarExcs) (partialDos b h d n k) := by intro b h d n k; unfold partialDos; dsimp only; raises
  unfold DoscarFull.fromList; raises

theorem _root_.Verif.RaisesIn.among {α : Type} {excs : List Exc} {r : Res α} (h : RaisesIn (· ∈ excs) r) : RaisesIn (Among excs) r := h.mono fun _ => List.mem_cons_of_mem _

/-- C127 for DOSCAR, every text: the model leaves none open. -/
theorem C127_doscar (nc : Bool) : Escapes (fun t : Str => DoscarFull.init none (some t) nc) [.indexError, .valueError, .typeError, .keyError, .attributeError, .overflowError] ∧
    ∀ t, DoscarFull.init none (some t) nc ≠ .raise .outOfModel := by
  refine ⟨.mk' (fun t => (doscar_list nc (readlines t)).among) ?_, fun t h => ?_⟩
  · intro e he
    simp only [List.mem_cons, List.not_mem_nil, or_false] at he
    rcases he with rfl | rfl | rfl | rfl | rfl | rfl
    · exact ⟨[], by cases nc <;> decide +kernel⟩
    · exact ⟨c!"x", by cases nc <;> decide +kernel⟩
    · exact ⟨c!"1", by cases nc <;> decide +kernel⟩
    · exact ⟨c!"1 1 1 0\n0\n0\nCAR\nname\n 2 -1 1 5 1\n 1 2\n", by cases nc <;> decide +kernel⟩
    · exact ⟨c!"1 1 1 0\n0\n0\nCAR C\nname\n 2 -1 1 5 1\n 1 2 3\n", by cases nc <;> decide +kernel⟩
    · exact ⟨c!"1 1 1 0\n0\n0\nCAR\nname\n 2 -1 inf 5 1\n", by cases nc <;> decide +kernel⟩
  · have := (doscar_list nc (readlines t)).of _ h
    revert this; decide

end Doscar

/-! ### EIGENVAL -/

/-- What a broken EIGENVAL can raise. -/
def eigenvalExcs : List Exc := [.indexError, .valueError, .typeError, .attributeError]

section Eigenval
open EigenvalFull

theorem eigenval_list (lines : List Str) : RaisesIn (· ∈ eigenvalExcs) (EigenvalFull.fromList lines) := by
  have i1 : ∀ (l : List Str) i, RaisesIn (· ∈ eigenvalExcs) (Kpoints.idx l i) := idx' (by decide)
  have i3 : ∀ l, RaisesIn (· ∈ eigenvalExcs) (lineToType toNum l) := lineToType' (toNum' (by decide))
  have i4 : ∀ l, RaisesIn (· ∈ eigenvalExcs) (lineToType Kpoints.toInt l) := lineToType' (toInt' (by decide))
  have i5 : ∀ l, RaisesIn (· ∈ eigenvalExcs) (lineToType (α := Str) Res.ok l) := lineToType' fun _ => RaisesIn.ok _
  have i6 : ∀ n (x : OneOrMany Int), RaisesIn (· ∈ eigenvalExcs) (Doscar.unpack n x) := unpack' (by decide) (by decide)
  have i8 : ∀ x, RaisesIn (· ∈ eigenvalExcs) (Doscar.cartesianOf x) := cartesian' (by decide)
  have i9 : ∀ n, RaisesIn (· ∈ eigenvalExcs) (Eigenval.size n) := by intro n; unfold Eigenval.size; raises
  have j1 : ∀ w, RaisesIn (· ∈ eigenvalExcs) (toNum w) := toNum' (by decide)
  have j2 : ∀ w, RaisesIn (· ∈ eigenvalExcs) (Kpoints.toInt w) := toInt' (by decide)
  have i10 : ∀ n v, RaisesIn (· ∈ eigenvalExcs) (broadcast n v) := by
    clear i1 i3 i4 i5 i6 i8 i9 j1 j2; intro n v; unfold broadcast; raises
  have i11 : ∀ n v, RaisesIn (· ∈ eigenvalExcs) (Eigenval.index n v) := by
    clear i1 i3 i4 i5 i6 i8 i9 j1 j2 i10; intro n v; unfold Eigenval.index; raises
  have i12 : ∀ a b c d e, RaisesIn (· ∈ eigenvalExcs) (readBand a b c d e) := by
    intro a b c d e; unfold readBand; raises
  have i13 : ∀ a b c d, RaisesIn (· ∈ eigenvalExcs) (readBlock a b c d) := by
    intro a b c d; unfold readBlock
    clear i1 i3 i4 i5 i6 i8 i9 i11
    raises
  clear i10 i11 i12 j1 j2
  unfold EigenvalFull.fromList; raises

/-- C127 for EIGENVAL, every text: the model leaves none open. -/
theorem C127_eigenval : Escapes (fun t : Str => EigenvalFull.init none (some t)) [.indexError, .valueError, .typeError, .attributeError] ∧
    ∀ t, EigenvalFull.init none (some t) ≠ .raise .outOfModel := by
  refine ⟨.mk' (fun t => (eigenval_list (readlines t)).among) ?_, fun t h => ?_⟩
  · intro e he
    simp only [List.mem_cons, List.not_mem_nil, or_false] at he
    rcases he with rfl | rfl | rfl | rfl
    · exact ⟨[], by decide +kernel⟩
    · exact ⟨c!"x", by decide +kernel⟩
    · exact ⟨c!"1\n0\n0\nCAR\nname\n 2 \n", by decide +kernel⟩
    · exact ⟨c!"1 1 1 1\n0\n0\nCAR C\nname\n 2 1 1\n 0 0 0 1\n 1 2 3\n", by decide +kernel⟩
  · have := (eigenval_list (readlines t)).of _ h
    revert this; decide

end Eigenval

/-! ### CHGCAR -/

/-- What a broken CHGCAR can raise. -/
def chgcarExcs : List Exc := [.indexError, .valueError]

section Chgcar
open ChgcarFull

theorem chgcar_text (t : Str) : RaisesIn (Among chgcarExcs) (ChgcarFull.fromText t) := by
  have i1 : ∀ (l : List Str) i, RaisesIn (Among chgcarExcs) (Kpoints.idx l i) := idx' (by decide)
  have j1 : ∀ w, RaisesIn (Among chgcarExcs) (Kpoints.toFloat w) := toFloat' (by decide) (by decide)
  have j2 : ∀ w, RaisesIn (Among chgcarExcs) (Kpoints.toInt w) := toInt' (by decide)
  have i3 : ∀ l, RaisesIn (Among chgcarExcs) (Chgcar.vector l) := by clear i1 j1 j2; intro w; unfold Chgcar.vector; raises
  have i4 : ∀ s h i, RaisesIn (Among chgcarExcs) (Chgcar.readVector s h i) := by intro s h i; unfold Chgcar.readVector; raises
  have i8 : ∀ n d, RaisesIn (Among chgcarExcs) (reshape n d) := by
    clear i1 j1 j2 i3 i4; intro n d; unfold reshape; dsimp only; raises
  have i5 : ∀ d v p, RaisesIn (Among chgcarExcs) (density d v p) := by
    clear i1 j1 j2 i3 i4; intro d v p; unfold density; raises
  have i6 : ∀ d v p, RaisesIn (Among chgcarExcs) (magnetization d v p) := by
    clear i1 j1 j2 i3 i4; intro d v p; unfold magnetization; raises
  have i7 : ∀ p, RaisesIn (Among chgcarExcs) (Chgcar.second p) := by
    clear i1 j1 j2 i3 i4 i5 i6 i8; intro p; unfold Chgcar.second; raises
  unfold ChgcarFull.fromText; raises

/-- C127 for CHGCAR. -/
theorem C127_chgcar : Escapes (fun t : Str => ChgcarFull.init none (some t)) [.indexError, .valueError] := by
  refine .mk' chgcar_text ?_
  intro e he
  simp only [List.mem_cons, List.not_mem_nil, or_false] at he
  rcases he with rfl | rfl
  · exact ⟨[], by decide +kernel⟩
  · exact ⟨c!"name\nx\n\n", by decide +kernel⟩

end Chgcar

/-! ### POTCAR -/

/-- What a broken POTCAR can raise. -/
def potcarExcs : List Exc := [.attributeError, .valueError, .keyError]

section Potcar

theorem potcar_bool (v : Str) : RaisesIn (Among potcarExcs) (Potcar.toBool v) := by
  unfold Potcar.toBool; raises

theorem potcar_convert (k : Str) (f : Str → Res Potcar.Value) (h : Potcar.converter k = some f) (v : Str) : RaisesIn (Among potcarExcs) (f v) := by
  have j1 : ∀ w, RaisesIn (Among potcarExcs) (Kpoints.toFloat w) := toFloat' (by decide) (by decide)
  have j2 : ∀ w, RaisesIn (Among potcarExcs) (Kpoints.toInt w) := toInt' (by decide)
  unfold Potcar.converter at h
  split at h
  · cases h; exact RaisesIn.ok _
  · split at h
    · cases h; exact potcar_bool _
    · split at h
      · cases h; exact RaisesIn.ite (RaisesIn.raise (by decide)) (RaisesIn.bind (j2 _) fun _ => RaisesIn.ok _)
      · split at h
        · cases h; exact RaisesIn.bind (j1 _) fun _ => RaisesIn.ok _
        · split at h
          · cases h; exact RaisesIn.ite (RaisesIn.raise (by decide)) (RaisesIn.bind (RaisesIn.mapM' j1 _) fun _ => RaisesIn.ok _)
          · cases h

theorem potcar_collect (l : List (Str × Str)) (d : Dict Str Potcar.Value) : RaisesIn (Among potcarExcs) (Potcar.collect d l) := by
  induction l generalizing d with
  | nil => exact RaisesIn.ok _
  | cons a l ih =>
    unfold Potcar.collect
    cases h : Potcar.converter a.1 with
    | none => exact ih d
    | some f => exact RaisesIn.bind (potcar_convert _ f h _) fun x => ih _

theorem potcar_text (t : Str) : RaisesIn (Among potcarExcs) (Potcar.fromText t) := by
  have i1 : ∀ t, RaisesIn (Among potcarExcs) (Potcar.region t) := by intro t; unfold Potcar.region; raises
  have i2 : ∀ d l, RaisesIn (Among potcarExcs) (Potcar.collect d l) := fun d l => potcar_collect l d
  unfold Potcar.fromText; raises

/-- C127 for POTCAR. -/
theorem C127_potcar : Escapes (fun t : Str => Potcar.init none (some t)) [.attributeError, .valueError, .keyError] := by
  refine .mk' potcar_text ?_
  intro e he
  simp only [List.mem_cons, List.not_mem_nil, or_false] at he
  rcases he with rfl | rfl | rfl
  · exact ⟨[], by decide +kernel⟩
  · exact ⟨c!"parameters from PSCTR are:\n ENMAX = x\nEND of PSCTR-controll parameters", by decide +kernel⟩
  · exact ⟨c!"parameters from PSCTR are:\nEND of PSCTR-controll parameters", by decide +kernel⟩

end Potcar

/-! ### KPOINTS -/

/-- What a broken KPOINTS can raise. -/
def kpointsExcs : List Exc := [.indexError, .valueError]

section Kpoints
open Kpoints

theorem kpoints_parse (lines : List Str) : RaisesIn (Among kpointsExcs) (Kpoints.parse lines) := by
  have i1 : ∀ (l : List Str) i, RaisesIn (Among kpointsExcs) (idx l i) := idx' (by decide)
  have i2 : ∀ (l : Str) i, RaisesIn (Among kpointsExcs) (idx l i) := idx' (by decide)
  have j1 : ∀ w, RaisesIn (Among kpointsExcs) (toFloat w) := toFloat' (by decide) (by decide)
  have j2 : ∀ w, RaisesIn (Among kpointsExcs) (toInt w) := toInt' (by decide)
  have i3 : ∀ l, RaisesIn (Among kpointsExcs) (parsePoint l) := by intro l; unfold parsePoint; raises
  have i4 : ∀ l, RaisesIn (Among kpointsExcs) (parseTetraLine l) := by intro l; unfold parseTetraLine; raises
  have i5 : ∀ l n, RaisesIn (Among kpointsExcs) (parseTetra l n) := by intro l n; unfold parseTetra; raises
  have i6 : ∀ l p c, RaisesIn (Among kpointsExcs) (parseExplicit l p c) := by intro l p c; unfold parseExplicit; raises
  have i7 : ∀ l p c, RaisesIn (Among kpointsExcs) (parseAutomatic l p c) := by intro l p c; unfold parseAutomatic; raises
  have i8 : ∀ l, RaisesIn (Among kpointsExcs) (parseLinePoint l) := by intro l; unfold parseLinePoint; raises
  have i9 : ∀ l p, RaisesIn (Among kpointsExcs) (parseLineMode l p) := by intro l p; unfold parseLineMode; raises
  unfold Kpoints.parse; dsimp only; raises

theorem kpoints_validate {S : Exc → Prop} (p : Parsed) : RaisesIn S (Kpoints.validate p.toEntries) := by
  have i1 : ∀ e k v, RaisesIn S (argOr e k v) := by intro e k v; unfold argOr; raises
  have i2 : RaisesIn S (lookup p.toEntries c!"divisions") := RaisesIn.ok _
  have i3 : RaisesIn S (lookup p.toEntries c!"points") := RaisesIn.ok _
  have i4 : RaisesIn S (lookup p.toEntries c!"generating_vectors") := RaisesIn.ok _
  have i5 : RaisesIn S (lookup p.toEntries c!"comment") := RaisesIn.ok _
  have i6 : RaisesIn S (checkDict p.toEntries) := by unfold checkDict; raises
  have i7 : RaisesIn S (checkComment p.toEntries .none) := by unfold checkComment; raises
  have i8 : ∀ e v, RaisesIn S (checkPoints e v) := by intro e v; unfold checkPoints; raises
  have i9 : ∀ e v, RaisesIn S (checkCentering e v) := by intro e v; unfold checkCentering; raises
  have i10 : ∀ e v, RaisesIn S (checkDivisions e v) := by intro e v; unfold checkDivisions; raises
  have i11 : ∀ e v, RaisesIn S (checkVectors e v) := by intro e v; unfold checkVectors; raises
  have i12 : ∀ e v, RaisesIn S (checkShifts e v) := by intro e v; unfold checkShifts; raises
  have i13 : ∀ e v, RaisesIn S (checkMode e v) := by intro e v; unfold checkMode; raises
  have i14 : ∀ e v, RaisesIn S (checkNum e v) := by intro e v; unfold checkNum; raises
  have i15 : ∀ x, RaisesIn S (checkTetraElem x) := by
    clear i1 i2 i3 i4 i5 i6 i7 i8 i9 i10 i11 i12 i13 i14; intro x; unfold checkTetraElem; raises
  have i16 : ∀ e v, RaisesIn S (checkTetra e v) := by intro e v; unfold checkTetra; raises
  have i17 : ∀ e v, RaisesIn S (checkTetraVolume e v) := by intro e v; unfold checkTetraVolume; raises
  unfold Kpoints.validate; raises

/-- C127 for KPOINTS. -/
theorem C127_kpoints : Escapes (fun t : Str => Kpoints.init { handler := some t }) [.indexError, .valueError] := by
  refine .mk' (fun t => ?_) ?_
  · have : Kpoints.init { handler := some t } = (Kpoints.parse (readlines t) >>= fun p => validate p.toEntries >>= fun _ => .ok p.toEntries) := by
      show (if false = true then _ else _) = _
      rw [if_neg (by decide)]
      unfold load fromFile fromList
      simp only [Option.isSome, Bool.or_true, if_true]
      cases Kpoints.parse (readlines t) <;> rfl
    rw [this]
    exact RaisesIn.bind (kpoints_parse _) fun p => RaisesIn.bind (kpoints_validate p) fun _ => RaisesIn.ok _
  · intro e he
    simp only [List.mem_cons, List.not_mem_nil, or_false] at he
    rcases he with rfl | rfl
    · exact ⟨[], by decide +kernel⟩
    · exact ⟨c!"name\nx\n", by decide +kernel⟩

end Kpoints

/-! ### OUTCAR -/

/-- What a broken OUTCAR can raise. -/
def outcarExcs : List Exc := [.indexError, .valueError, .keyError, .typeError]

section Outcar
open Outcar
open Verif.Kpoints (idx toInt toFloat)

theorem outcar_step (s : State) (l : Str) (ls : List Str) : RaisesIn (Among outcarExcs) (step s l ls) := by
  have i1 : ∀ w, RaisesIn (Among outcarExcs) (toFloat w) := toFloat' (by decide) (by decide)
  have i2 : ∀ w, RaisesIn (Among outcarExcs) (toInt w) := toInt' (by decide)
  have i3 : ∀ (l : List Str) i, RaisesIn (Among outcarExcs) (idx l i) := idx' (by decide)
  have i4 : ∀ d k l, RaisesIn (Among outcarExcs) (matchIntegerParam d k l) := by intro d k l; unfold matchIntegerParam; raises
  have i5 : ∀ p l, RaisesIn (Among outcarExcs) (splitSecond p l) := by intro p l; unfold splitSecond; raises
  have i7 : ∀ r, RaisesIn (Among outcarExcs) (readTensor r) := by
    intro r; unfold readTensor
    refine RaisesIn.mapM' ?_ _
    intro i; raises
  have i8 : ∀ h k l r e, RaisesIn (Among outcarExcs) (readElastic h k l r e) := by intro h k l r e; unfold readElastic; raises
  have i9 : ∀ n cs m, RaisesIn (Among outcarExcs) (orbitals n cs m) := by
    intro n cs
    induction cs generalizing n with
    | nil => intro m; unfold orbitals; raises
    | cons c cs ih => intro m; unfold orbitals; raises
  have i10 : ∀ l, RaisesIn (Among outcarExcs) (readMoments l) := by intro l; unfold readMoments; raises
  have i11 : ∀ m ls, RaisesIn (Among outcarExcs) (readMag m ls) := by
    intro m ls
    induction ls generalizing m with
    | nil => unfold readMag; raises
    | cons l ls ih => unfold readMag; raises
  have i12 : ∀ c l r m, RaisesIn (Among outcarExcs) (readSphere c l r m) := by intro c l r m; unfold readSphere; raises
  have i13 : ∀ s l r, RaisesIn (Among outcarExcs) (readMagnetization s l r) := by intro s l r; unfold readMagnetization; raises
  have i14 : ∀ s l, RaisesIn (Among outcarExcs) (readParams s l) := by intro s l; unfold readParams; raises
  have i15 : ∀ s l r, RaisesIn (Among outcarExcs) (readElastics s l r) := by intro s l r; unfold readElastics; raises
  have i16 : ∀ s l r, RaisesIn (Among outcarExcs) (readSymmetry s l r) := by
    intro s l r; unfold readSymmetry readPricel readSetgrp readGetgrp; raises
  unfold step; raises

theorem outcar_scan (s : State) (lines : List Str) : RaisesIn (Among outcarExcs) (scan s lines) := by
  induction lines generalizing s with
  | nil => exact RaisesIn.ok _
  | cons l ls ih => unfold scan; exact RaisesIn.bind (outcar_step s l ls) ih

theorem outcar_verdict (f : Bool) (i : Int) (a b : Option Int) (it : Nat × Nat) (st : Dict Nat Nat) : RaisesIn (Among outcarExcs) (verdict f i a b it st) := by
  have h1 : ∀ x y, RaisesIn (Among outcarExcs) (ltOpt x y) := by intro x y; unfold ltOpt; raises
  have h2 : ∀ x y z, RaisesIn (Among outcarExcs) (ionicFinished x y z) := by intro x y z; unfold ionicFinished; raises
  have h3 : ∀ x y, RaisesIn (Among outcarExcs) (mask x y) := by
    intro x y; unfold mask
    refine RaisesIn.mapM' ?_ _
    intro p; raises
  unfold verdict; raises

theorem outcar_stats (d : Dict Str (Option PyFloat)) (ls : List Str) : RaisesIn (Among outcarExcs) (stats d ls) := by
  have h1 : ∀ l, RaisesIn (Among outcarExcs) (statLine l) := by
    intro l
    have i3 : ∀ (l : List Str) i, RaisesIn (Among outcarExcs) (idx l i) := idx' (by decide)
    unfold statLine; dsimp only; raises
  induction ls generalizing d with
  | nil => exact RaisesIn.ok _
  | cons l ls ih =>
    unfold stats
    refine RaisesIn.bind (h1 l) fun r => ?_
    cases r with
    | none => exact ih d
    | some kv => exact ih _

theorem outcar_list (lines : List Str) : RaisesIn (Among outcarExcs) (Outcar.fromList lines) := by
  have i1 : ∀ s l, RaisesIn (Among outcarExcs) (scan s l) := outcar_scan
  have i2 : ∀ f i a b it st, RaisesIn (Among outcarExcs) (verdict f i a b it st) := outcar_verdict
  have i3 : ∀ d l, RaisesIn (Among outcarExcs) (stats d l) := outcar_stats
  unfold Outcar.fromList; raises

/-- C127 for OUTCAR. -/
theorem C127_outcar : Escapes (fun t : Str => Outcar.init none (some t)) [.indexError, .valueError, .keyError, .typeError] := by
  refine .mk' (fun t => outcar_list (readlines t)) ?_
  intro e he
  simp only [List.mem_cons, List.not_mem_nil, or_false] at he
  rcases he with rfl | rfl | rfl | rfl
  · exact ⟨c!" ELASTIC MODULI  (kBar)\n", by decide +kernel⟩
  · exact ⟨c!" NBANDS= x\n", by decide +kernel⟩
  · exact ⟨c!"magnetization (x)\n\n# of ion s\n---\n 1 1 1 1 1 1 1 1\n", by decide +kernel⟩
  · exact ⟨c!"--- Iteration   1(  1)  ---\n", by decide +kernel⟩

end Outcar

/-! ### INCAR -/

/-- C127 for INCAR, every text: the model leaves none open. -/
theorem C127_incar (F : FloatEnv) : Escapes (fun t : Str => Incar.fromList F (readlines t)) [.indexError, .valueError] := by
  refine ⟨fun t e he _ => ?_, ?_⟩
  · obtain ⟨_, _, _, _, _, h | h⟩ := (Incar.C11_failures_partial F (readlines t)).2 e he
    · rw [h.1]; decide
    · rw [h.1]; decide
  intro e he
  simp only [List.mem_cons, List.not_mem_nil, or_false] at he
  rcases he with rfl | rfl
  · exact ⟨c!"=1", by rfl⟩
  · exact ⟨c!"A=nan", by rfl⟩

/-! ### POSCAR -/

/-- What a broken POSCAR can raise. -/
def poscarExcs : List Exc := [.indexError, .valueError, .linAlgError]

section Poscar
open Poscar
open Verif.Kpoints (idx toInt toFloat)

theorem poscar_direct : ∀ v c, RaisesIn (Among poscarExcs) (toDirect v c) := by intro v c; unfold toDirect; raises

theorem poscar_cell (s : Rat) (a b c : List Rat) : RaisesIn (Among poscarExcs) (makeCell s a b c) := by
  unfold makeCell
  split
  · exact RaisesIn.ok _
  · exact RaisesIn.ite (RaisesIn.ok _) (RaisesIn.raise (by decide))

theorem poscar_parse (lines : List Str) : RaisesIn (Among poscarExcs) (parseZ lines) := by
  have i1 : ∀ (l : List Str) i, RaisesIn (Among poscarExcs) (idx l i) := idx' (by decide)
  have i1' : ∀ (l : Str) i, RaisesIn (Among poscarExcs) (idx l i) := idx' (by decide)
  have i1'' : ∀ (l : List Int) i, RaisesIn (Among poscarExcs) (idx l i) := idx' (by decide)
  have i0 : ∀ (l : List Str) i, RaisesIn (Among poscarExcs) (idxZ l i) := by intro l i; unfold idxZ; raises
  have i2 : ∀ w, RaisesIn (Among poscarExcs) (toFloat w) := toFloat' (by decide) (by decide)
  have i3 : ∀ w, RaisesIn (Among poscarExcs) (toInt w) := toInt' (by decide)
  have i4 : ∀ l, RaisesIn (Among poscarExcs) (readRow l) := by intro l; unfold readRow; raises
  have i5 : ∀ s a b c, RaisesIn (Among poscarExcs) (makeCell s a b c) := poscar_cell
  have i6 : ∀ l, RaisesIn (Among poscarExcs) (readVec l) := by intro l; unfold readVec; raises
  have i7 : ∀ v c, RaisesIn (Among poscarExcs) (toDirect v c) := poscar_direct
  have i8 : ∀ l s, RaisesIn (Among poscarExcs) (readFlags l s) := by intro v c; unfold readFlags readFlag; raises
  have i9 : ∀ h l, RaisesIn (Among poscarExcs) (readPos h l) := by intro h l; unfold readPos; raises
  have i10 : ∀ h lines n i s x, RaisesIn (Among poscarExcs) (readSites h lines n i s x) := by
    intro h lines n
    induction n with
    | zero => intro i s x; exact RaisesIn.ok _
    | succ n ih => intro i s x; unfold readSites; raises
  have i11 : ∀ lines, RaisesIn (Among poscarExcs) (readHeader lines) := by intro lines; unfold readHeader; raises
  have i12 : ∀ lines p, RaisesIn (Among poscarExcs) (readTail lines p) := by intro lines p; unfold readTail; raises
  have i13 : ∀ lines p n conv, (∀ v, RaisesIn (Among poscarExcs) (conv v)) → RaisesIn (Among poscarExcs) (readVecs lines p n conv) := by
    intro lines p n conv hc; unfold readVecs
    refine RaisesIn.mapM' ?_ _
    intro i; raises
  have i14 : ∀ lines p n, RaisesIn (Among poscarExcs) (readPredAfter lines p n) := by
    intro lines p n
    have := i13 lines (p + 1) n .ok (fun v => RaisesIn.ok v)
    unfold readPredAfter; raises
  have i15 : ∀ lines, RaisesIn (Among poscarExcs) (Poscar.parse lines) := by
    intro lines
    unfold Poscar.parse
    refine RaisesIn.bind (i11 _) fun h => ?_
    dsimp only
    refine RaisesIn.ite (RaisesIn.raise (by decide)) ?_
    refine RaisesIn.bind (i10 _ _ _ _ _ _) fun raws => ?_
    refine RaisesIn.bind (i12 _ _) fun t => ?_
    refine RaisesIn.ite ?_ (RaisesIn.ite ?_ (RaisesIn.ok _))
    · refine RaisesIn.bind (i13 _ _ _ _ ?_) fun vels => ?_
      · intro v; exact RaisesIn.ite (RaisesIn.ok _) (i7 _ _)
      · refine RaisesIn.bind (i14 _ _ _) fun _ => RaisesIn.ok _
    · exact RaisesIn.bind (i13 _ _ _ _ (fun v => RaisesIn.ok v)) fun _ => RaisesIn.ok _
  have i16 : ∀ lines p, RaisesIn (Among poscarExcs) (readTailZ lines p) := by intro lines p; unfold readTailZ; raises
  have i17 : ∀ lines p, RaisesIn (Among poscarExcs) (checkPredZ lines p) := by intro lines p; unfold checkPredZ; raises
  unfold parseZ
  refine RaisesIn.bind (i11 _) fun h => RaisesIn.ite (RaisesIn.bind (i16 _ _) fun t => ?_) (i15 _)
  exact RaisesIn.ite (RaisesIn.bind (i17 _ _) fun _ => RaisesIn.ok _) (RaisesIn.ok _)

theorem poscar_sites (c : Option Cell) (l : List Site) : RaisesIn (Among poscarExcs) (Res.mapM' (convertElem c) (l.map .site)) := by
  have h : Res.mapM' (convertElem c) (l.map .site) = Res.mapM' (fun s => convertElem c (.site s)) l := by
    induction l with
    | nil => rfl
    | cons a l ih => rw [List.map_cons, Res.mapM', Res.mapM', ih]
  rw [h]
  refine RaisesIn.mapM' (fun s => ?_) l
  have := poscar_direct
  unfold convertElem; raises

theorem poscar_finish (p : Parsed) : RaisesIn (Among poscarExcs) (fromDict p.toEntries >>= fun e => validate e >>= fun _ => .ok e) := by
  unfold fromDict
  show RaisesIn _ ((Res.mapM' (convertElem p.cell) (p.sites.map .site) >>= fun l' => .ok (p.toEntries.set c!"sites" (.sites l'))) >>= fun e => validate e >>= fun _ => .ok e)
  have h := poscar_sites p.cell p.sites
  cases hr : Res.mapM' (convertElem p.cell) (p.sites.map .site) with
  | raise e => exact RaisesIn.raise (h.of e hr)
  | exit k => exact RaisesIn.exit _
  | ok l' =>
    rw [Res.ok_bind, Res.ok_bind]
    refine RaisesIn.bind ?_ fun _ => RaisesIn.ok _
    show RaisesIn _ (validate [(c!"comment", .str p.comment), (c!"unitcell", .cell p.cell), (c!"sites", .sites l')])
    cases p.cell with
    | none => exact RaisesIn.exit _
    | some c => exact RaisesIn.ok _

/-- C127 for POSCAR. -/
theorem C127_poscar : Escapes initZ [.indexError, .valueError, .linAlgError] := by
  refine .mk' (fun t => ?_) ?_
  · unfold initZ
    exact RaisesIn.bind (poscar_parse _) fun p => poscar_finish p
  · intro e he
    simp only [List.mem_cons, List.not_mem_nil, or_false] at he
    rcases he with rfl | rfl | rfl
    · exact ⟨[], by decide +kernel⟩
    · exact ⟨c!"c\nx\n1 0 0\n0 1 0\n0 0 1\nSi\n1\nDirect\n0 0 0\n", by decide +kernel⟩
    · exact ⟨c!"c\n1.0\n1 0 0\n0 1 0\n0 0 0\nSi\n1\nCartesian\n0 0 0\n", by decide +kernel⟩

end Poscar

end Verif.Exceptions
