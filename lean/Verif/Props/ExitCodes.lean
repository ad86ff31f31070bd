import Verif.Props.SourcesWritable
import Verif.Lemmas.Exits
import Verif.Props.KpointsEdit
import Verif.Props.PoscarTyped
/-! # Which codes end the process (C116) -/
set_option autoImplicit false
namespace Verif.ExitCodes
open Verif Verif.Utils

/-- The calls `call i` end the process with the codes in the list and no others, and with each of them. -/
structure Exits {ι α : Type} (call : ι → Res α) (codes : List Nat) : Prop where
  only : ∀ i k, call i = .exit k → k ∈ codes
  all : ∀ k ∈ codes, ∃ i, call i = .exit k

theorem ExitsIn.of_in {α : Type} {codes : List Nat} {r : Res α} (h : ExitsIn (· ∈ codes) r) : ∀ k, r = .exit k → k ∈ codes := h.of

/-! ### KPOINTS -/

section Kpoints
open Verif.Kpoints

theorem kpoints_parse (lines : List Str) : ExitsIn (· ∈ [200, 201, 202, 203]) (Kpoints.parse lines) := by
  have i1 : ∀ (l : List Str) i, ExitsIn (· ∈ [200, 201, 202, 203]) (idx l i) := fun l i => idx_exits l i
  have i2 : ∀ (l : Str) i, ExitsIn (· ∈ [200, 201, 202, 203]) (idx l i) := fun l i => idx_exits l i
  have i3 : ∀ w, ExitsIn (· ∈ [200, 201, 202, 203]) (toFloat w) := toFloat_exits
  have i4 : ∀ w, ExitsIn (· ∈ [200, 201, 202, 203]) (toInt w) := toInt_exits
  have i5 : ∀ l, ExitsIn (· ∈ [200, 201, 202, 203]) (parsePoint l) := by intro l; unfold parsePoint; exits
  have i6 : ∀ l, ExitsIn (· ∈ [200, 201, 202, 203]) (parseTetraLine l) := by intro l; unfold parseTetraLine; exits
  have i7 : ∀ l n, ExitsIn (· ∈ [200, 201, 202, 203]) (parseTetra l n) := by intro l n; unfold parseTetra; exits
  have i8 : ∀ l p c, ExitsIn (· ∈ [200, 201, 202, 203]) (parseExplicit l p c) := by intro l p c; unfold parseExplicit; exits
  have i9 : ∀ l p c, ExitsIn (· ∈ [200, 201, 202, 203]) (parseAutomatic l p c) := by intro l p c; unfold parseAutomatic; exits
  have i10 : ∀ l, ExitsIn (· ∈ [200, 201, 202, 203]) (parseLinePoint l) := by intro l; unfold parseLinePoint; exits
  have i11 : ∀ l p, ExitsIn (· ∈ [200, 201, 202, 203]) (parseLineMode l p) := by intro l p; unfold parseLineMode; exits
  unfold parse; exits

theorem kpoints_validate (e : Entries) : ExitsIn (· ∈ [12, 13, 201, 206, 212, 213]) (validate e) := by
  have i1 : ∀ e k, ExitsIn (· ∈ [12, 13, 201, 206, 212, 213]) (lookup e k) := by intro e k; unfold lookup; exits
  have i2 : ∀ e k v, ExitsIn (· ∈ [12, 13, 201, 206, 212, 213]) (argOr e k v) := by intro e k v; unfold argOr; exits
  have i3 : ∀ x, ExitsIn (· ∈ [12, 13, 201, 206, 212, 213]) (checkTetraElem x) := by intro x; unfold checkTetraElem; exits
  unfold validate checkDict checkComment checkPoints checkCentering checkDivisions checkVectors checkShifts checkMode checkNum
    checkTetra checkTetraVolume
  exits

/-- An object whose entry `k` is replaced by `v`. -/
def kpointsWith (k : Str) (v : Val) : Entries :=
  (Parsed.toEntries { comment := c!"c", num := 0, mode := c!"automatic", divisions := some [1, 1, 1], centering := some c!"Gamma" }).set k v

/-- C116 for `Kpoints(...)`. -/
theorem C116_kpoints : Exits Kpoints.init [10, 12, 13, 14, 200, 201, 202, 203, 206, 212, 213] := by
  constructor
  · intro s
    have hp := fun l => (kpoints_parse l).mono (T := (· ∈ [10, 12, 13, 14, 200, 201, 202, 203, 206, 212, 213])) (by intro k hk; revert k; decide)
    have hv := fun l => (kpoints_validate l).mono (T := (· ∈ [10, 12, 13, 14, 200, 201, 202, 203, 206, 212, 213])) (by intro k hk; revert k; decide)
    suffices h : ExitsIn (· ∈ [10, 12, 13, 14, 200, 201, 202, 203, 206, 212, 213]) (Kpoints.init s) from h.of
    unfold Kpoints.init Kpoints.load Kpoints.fromFile Kpoints.fromList
    exits
  · intro k hk
    simp only [List.mem_cons, List.not_mem_nil, or_false] at hk
    rcases hk with rfl | rfl | rfl | rfl | rfl | rfl | rfl | rfl | rfl | rfl | rfl
    · exact ⟨{}, rfl⟩
    · exact ⟨{ dict := some [(c!"divisions", .list [])] }, by decide +kernel⟩
    · exact ⟨{ dict := some (kpointsWith c!"shifts" (.int 1)) }, by decide +kernel⟩
    · exact ⟨{ path := some none }, rfl⟩
    · exact ⟨{ string := some c!"c\n1\nCartesian\n0 0 0 1\n" }, by decide +kernel⟩
    · exact ⟨{ string := some c!"c\n1\nDirect\n0 0 0 1\nT\n1 0.5\n1 1 1 1\n" }, by decide +kernel⟩
    · exact ⟨{ string := some c!"c\n0\nAuto\n10\n" }, by decide +kernel⟩
    · exact ⟨{ string := some c!"c\n0\nDirect\n1 0 0\n" }, by decide +kernel⟩
    · exact ⟨{ dict := some [(c!"divisions", .none), (c!"points", .none), (c!"generating_vectors", .none)] }, by decide +kernel⟩
    · exact ⟨{ dict := some (kpointsWith c!"centering" (.str c!"X")) }, by decide +kernel⟩
    · exact ⟨{ dict := some (kpointsWith c!"mode" (.str c!"X")) }, by decide +kernel⟩

/-- C116 for `modify` of a Kpoints object. -/
theorem C116_kpoints_modify :
    Exits (fun a : Entries × Str × Val × Option Int => Kpoints.modify a.1 a.2.1 a.2.2.1 a.2.2.2)
      [12, 13, 201, 205, 206, 207, 210, 211, 212, 213] := by
  constructor
  · intro a
    suffices h : ExitsIn (· ∈ [12, 13, 201, 205, 206, 207, 210, 211, 212, 213]) (Kpoints.modify a.1 a.2.1 a.2.2.1 a.2.2.2) from h.of
    have i1 : ∀ e k, ExitsIn (· ∈ [12, 13, 201, 205, 206, 207, 210, 211, 212, 213]) (lookup e k) := by intro e k; unfold lookup; exits
    have i2 : ∀ e k v, ExitsIn (· ∈ [12, 13, 201, 205, 206, 207, 210, 211, 212, 213]) (argOr e k v) := by intro e k v; unfold argOr; exits
    have i3 : ∀ x, ExitsIn (· ∈ [12, 13, 201, 205, 206, 207, 210, 211, 212, 213]) (checkTetraElem x) := by intro x; unfold checkTetraElem; exits
    have i4 : ∀ v, ExitsIn (· ∈ [12, 13, 201, 205, 206, 207, 210, 211, 212, 213]) (checkDirect v) := by
      intro v; unfold checkDirect; exits
    have i5 : ∀ e k v, ExitsIn (· ∈ [12, 13, 201, 205, 206, 207, 210, 211, 212, 213]) (checkEntry e k v) := by
      intro e k v
      unfold checkEntry checkComment checkPoints checkCentering checkDivisions checkVectors checkShifts checkMode checkNum checkTetra checkTetraVolume
      exits
    unfold Kpoints.modify checkAllowed checkDict checkPoint checkPointNumber
    exits
  · intro k hk
    simp only [List.mem_cons, List.not_mem_nil, or_false] at hk
    rcases hk with rfl | rfl | rfl | rfl | rfl | rfl | rfl | rfl | rfl | rfl
    · exact ⟨([(c!"divisions", .list [])], c!"comment", .none, none), by decide +kernel⟩
    · exact ⟨(kpointsWith c!"x" .none, c!"comment", .int 1, none), by decide +kernel⟩
    · exact ⟨(kpointsWith c!"x" .none, c!"tetra", .list [.list [.int 1]], none), by decide +kernel⟩
    · exact ⟨(kpointsWith c!"x" .none, c!"points", .list [.atom (.point ⟨[0, 0, 0], none, false⟩)], none), by decide +kernel⟩
    · exact ⟨([(c!"divisions", .none), (c!"points", .none), (c!"generating_vectors", .none)], c!"comment", .none, none), by decide +kernel⟩
    · exact ⟨(kpointsWith c!"x" .none, c!"nothing", .none, none), by decide +kernel⟩
    · exact ⟨(kpointsWith c!"x" .none, c!"points", .int 3, some 0), by decide +kernel⟩
    · exact ⟨(kpointsWith c!"points" (.list []), c!"points", .atom (.point ⟨[0, 0, 0], none, true⟩), some 0), by decide +kernel⟩
    · exact ⟨(kpointsWith c!"x" .none, c!"centering", .str c!"X", none), by decide +kernel⟩
    · exact ⟨(kpointsWith c!"x" .none, c!"mode", .str c!"X", none), by decide +kernel⟩

/-- C116 for `delete_point`. -/
theorem C116_kpoints_delete : Exits (fun a : Entries × Int => Kpoints.deletePoint a.1 a.2) [12, 13, 211] := by
  constructor
  · intro a
    suffices h : ExitsIn (· ∈ [12, 13, 211]) (Kpoints.deletePoint a.1 a.2) from h.of
    have i1 : ∀ e k, ExitsIn (· ∈ [12, 13, 211]) (lookup e k) := by intro e k; unfold lookup; exits
    have i2 : ∀ e k v, ExitsIn (· ∈ [12, 13, 211]) (argOr e k v) := by intro e k v; unfold argOr; exits
    unfold Kpoints.deletePoint checkPoints checkPointNumber
    exits
  · intro k hk
    simp only [List.mem_cons, List.not_mem_nil, or_false] at hk
    rcases hk with rfl | rfl | rfl
    · exact ⟨([], 0), by decide +kernel⟩
    · exact ⟨(kpointsWith c!"points" (.int 1), 0), by decide +kernel⟩
    · exact ⟨(kpointsWith c!"points" (.list []), 0), by decide +kernel⟩

/-- C116 for `write` of a Kpoints object: the codes of the validation. -/
theorem C116_kpoints_write (prec : Nat) : Exits (Kpoints.write prec) [12, 13, 201, 206, 212, 213] := by
  constructor
  · intro e
    suffices h : ExitsIn (· ∈ [12, 13, 201, 206, 212, 213]) (Kpoints.write prec e) from h.of
    have hv := kpoints_validate
    have i1 : ∀ e k, ExitsIn (· ∈ [12, 13, 201, 206, 212, 213]) (lookup e k) := by intro e k; unfold lookup; exits
    have i2 : ∀ {α} (l : List α) i, ExitsIn (· ∈ [12, 13, 201, 206, 212, 213]) (idx l i) := fun l i => idx_exits l i
    have i3 : ∀ {α} (l : List α), ExitsIn (· ∈ [12, 13, 201, 206, 212, 213]) (three l) := by intro α l; unfold three; exits
    have i4 : ∀ p x, ExitsIn (· ∈ [12, 13, 201, 206, 212, 213]) (writePoint p x) := by intro p x; unfold writePoint; exits
    have i5 : ∀ p x, ExitsIn (· ∈ [12, 13, 201, 206, 212, 213]) (writeLinePoint p x) := by intro p x; unfold writeLinePoint; exits
    have i6 : ∀ v f, (∀ x, ExitsIn (· ∈ [12, 13, 201, 206, 212, 213]) (f x)) → ExitsIn (· ∈ [12, 13, 201, 206, 212, 213]) (overPoints v f) := by
      intro v f hf; unfold overPoints; exits
    have i7 : ∀ x, ExitsIn (· ∈ [12, 13, 201, 206, 212, 213]) (tetraInts x) := by intro x; unfold tetraInts; exits
    have i8 : ∀ p a b, ExitsIn (· ∈ [12, 13, 201, 206, 212, 213]) (writeTetra p a b) := by intro p a b; unfold writeTetra; exits
    have i9 : ∀ x, ExitsIn (· ∈ [12, 13, 201, 206, 212, 213]) (floatElem x) := by intro x; unfold floatElem; exits
    have i10 : ∀ x, ExitsIn (· ∈ [12, 13, 201, 206, 212, 213]) (intElem x) := by intro x; unfold intElem; exits
    have i11 : ∀ x, ExitsIn (· ∈ [12, 13, 201, 206, 212, 213]) (floatElems x) := by
      intro x; unfold floatElems
      split
      · refine ExitsIn.bind (i3 _) fun t => ExitsIn.mapM' (fun a => ?_) _
        exits
      · exits
    have i12 : ∀ p x, ExitsIn (· ∈ [12, 13, 201, 206, 212, 213]) (writeDivisions p x) := by intro p x; unfold writeDivisions; exits
    have i13 : ∀ p x, ExitsIn (· ∈ [12, 13, 201, 206, 212, 213]) (writeVectors p x) := by intro p x; unfold writeVectors; exits
    have i14 : ∀ p x, ExitsIn (· ∈ [12, 13, 201, 206, 212, 213]) (writeShifts p x) := by intro p x; unfold writeShifts; exits
    have i15 : ∀ p x, ExitsIn (· ∈ [12, 13, 201, 206, 212, 213]) (writeAutomatic p x) := by intro p x; unfold writeAutomatic; exits
    have i16 : ∀ p x n, ExitsIn (· ∈ [12, 13, 201, 206, 212, 213]) (writeExplicit p x n) := by
      intro p x n; unfold writeExplicit
      refine ExitsIn.bind (i1 _ _) fun pts => ExitsIn.bind (i6 _ _ (i4 p)) fun ls => ?_
      exits
    unfold Kpoints.write
    refine ExitsIn.bind (hv e) fun _ => ExitsIn.bind (i1 _ _) fun c => ?_
    dsimp only
    refine ExitsIn.bind (i1 _ _) fun m => ?_
    split
    · refine ExitsIn.bind (i1 _ _) fun n => ?_
      split
      · refine ExitsIn.ite (ExitsIn.bind (i16 _ _ _) fun _ => ExitsIn.ok _) (ExitsIn.ite (ExitsIn.bind (i15 _ _) fun _ => ExitsIn.ok _) ?_)
        exact ExitsIn.bind (i1 _ _) fun pts => ExitsIn.bind (i6 _ _ (i5 prec)) fun ls => ExitsIn.ok _
      · exact ExitsIn.raise _
    · exact ExitsIn.ok _
  · intro k hk
    simp only [List.mem_cons, List.not_mem_nil, or_false] at hk
    have w : ∀ e : Entries, Kpoints.validate e = .exit k → Kpoints.write prec e = .exit k := by
      intro e he; unfold Kpoints.write; rw [he]; rfl
    rcases hk with rfl | rfl | rfl | rfl | rfl | rfl
    · exact ⟨[(c!"divisions", .list [])], w _ (by decide +kernel)⟩
    · exact ⟨kpointsWith c!"shifts" (.int 1), w _ (by decide +kernel)⟩
    · exact ⟨kpointsWith c!"tetra" (.list [.list [.int 1]]), w _ (by decide +kernel)⟩
    · exact ⟨[(c!"divisions", .none), (c!"points", .none), (c!"generating_vectors", .none)], w _ (by decide +kernel)⟩
    · exact ⟨kpointsWith c!"centering" (.str c!"X"), w _ (by decide +kernel)⟩
    · exact ⟨kpointsWith c!"mode" (.str c!"X"), w _ (by decide +kernel)⟩

end Kpoints

/-! ### POSCAR -/

section Poscar
open Verif.Poscar Verif.Lattice
open Verif.Kpoints (idx toFloat toInt pyIndex)

theorem poscar_fromList (lines : List Str) : ExitsIn (· ∈ [301, 302, 307]) (Poscar.fromList lines) := by
  have i1 : ∀ {α} (l : List α) i, ExitsIn (· ∈ [301, 302, 307]) (idx l i) := fun l i => Poscar.idx_exits l i
  have i2 : ∀ w, ExitsIn (· ∈ [301, 302, 307]) (toFloat w) := fun w => Poscar.toFloat_exits w
  have i3 : ∀ w, ExitsIn (· ∈ [301, 302, 307]) (toInt w) := fun w => Poscar.toInt_exits w
  have i4 : ∀ l, ExitsIn (· ∈ [301, 302, 307]) (readRow l) := fun l => readRow_exits l
  have i5 : ∀ s a b c, ExitsIn (· ∈ [301, 302, 307]) (makeCell s a b c) := fun s a b c => makeCell_exits s a b c
  have i6 : ∀ l, ExitsIn (· ∈ [301, 302, 307]) (readVec l) := by intro l; unfold readVec; exits
  have i7 : ∀ v c, ExitsIn (· ∈ [301, 302, 307]) (toDirect v c) := by intro v c; unfold toDirect; exits
  have i8 : ∀ l s, ExitsIn (· ∈ [301, 302, 307]) (readFlags l s) := by intro v c; unfold readFlags readFlag; exits
  have i9 : ∀ h l, ExitsIn (· ∈ [301, 302, 307]) (readPos h l) := by intro h l; unfold readPos; exits
  have i10 : ∀ h lines n i s x, ExitsIn (· ∈ [301, 302, 307]) (readSites h lines n i s x) := by
    intro h lines n
    induction n with
    | zero => intro i s x; exact ExitsIn.ok _
    | succ n ih => intro i s x; unfold readSites; exits
  have i11 : ∀ lines, ExitsIn (· ∈ [301, 302, 307]) (readHeader lines) := by
    intro lines
    have : ∀ l : List Str, ExitsIn (· ∈ [301, 302, 307]) (Res.mapM' toInt l) := fun l => ExitsIn.mapM' i3 l
    unfold readHeader; exits
  have i12 : ∀ lines p, ExitsIn (· ∈ [301, 302, 307]) (readTail lines p) := by intro lines p; unfold readTail; exits
  have i13 : ∀ lines p n conv, (∀ v, ExitsIn (· ∈ [301, 302, 307]) (conv v)) → ExitsIn (· ∈ [301, 302, 307]) (readVecs lines p n conv) := by
    intro lines p n conv hc; unfold readVecs
    refine ExitsIn.mapM' ?_ _
    intro i; exits
  have i14 : ∀ lines p n, ExitsIn (· ∈ [301, 302, 307]) (readPredAfter lines p n) := by
    intro lines p n
    have := i13 lines (p + 1) n .ok (fun v => ExitsIn.ok v)
    unfold readPredAfter; exits
  have i15 : ∀ lines, ExitsIn (· ∈ [301, 302, 307]) (Poscar.parse lines) := by
    intro lines
    unfold Poscar.parse
    refine ExitsIn.bind (i11 _) fun h => ?_
    dsimp only
    refine ExitsIn.ite (ExitsIn.raise _) ?_
    refine ExitsIn.bind (i10 _ _ _ _ _ _) fun raws => ?_
    refine ExitsIn.bind (i12 _ _) fun t => ?_
    refine ExitsIn.ite ?_ (ExitsIn.ite ?_ (ExitsIn.ok _))
    · refine ExitsIn.bind (i13 _ _ _ _ ?_) fun vels => ?_
      · intro v; exits
      · refine ExitsIn.bind (i14 _ _ _) fun _ => ExitsIn.ok _
    · exact ExitsIn.bind (i13 _ _ _ _ (fun v => ExitsIn.ok v)) fun _ => ExitsIn.ok _
  unfold Poscar.fromList
  exact ExitsIn.bind (i15 _) fun _ => ExitsIn.ok _

theorem poscar_finish (d : Poscar.Entries) : ExitsIn (· ∈ [13]) (Poscar.fromDict d >>= fun e => Poscar.validate e >>= fun _ => .ok e) := by
  have i1 : ∀ e k, ExitsIn (· ∈ [13]) (Poscar.lookup e k) := by intro e k; unfold Poscar.lookup; exits
  have i2 : ∀ e k v, ExitsIn (· ∈ [13]) (Poscar.argOr e k v) := by intro e k v; unfold Poscar.argOr; exits
  have i3 : ∀ v c, ExitsIn (· ∈ [13]) (toDirect v c) := by intro v c; unfold toDirect; exits
  have i4 : ∀ c x, ExitsIn (· ∈ [13]) (convertElem c x) := by intro c x; unfold convertElem; exits
  have i5 : ∀ c l, ExitsIn (· ∈ [13]) (Res.mapM' (convertElem c) l) := fun c l => ExitsIn.mapM' (i4 c) l
  have i6 : ∀ d, ExitsIn (· ∈ [13]) (Poscar.fromDict d) := by intro d; unfold Poscar.fromDict; exits
  have i7 : ∀ e, ExitsIn (· ∈ [13]) (Poscar.validate e) := by
    intro e; unfold Poscar.validate Poscar.checkComment checkCell checkSites; exits
  exits

/-- A cell. -/
def unitCell : Cell := ⟨⟨1, 0, 0⟩, ⟨0, 1, 0⟩, ⟨0, 0, 1⟩⟩

/-- C116 for `Poscar(...)`. A missing entry of the dictionary is no exit: it is a `KeyError` (`C116_violation_poscar`). -/
theorem C116_poscar : Exits Poscar.init [10, 13, 14, 301, 302, 307] := by
  constructor
  · intro s
    have hp := fun l => (poscar_fromList l).mono (T := (· ∈ [10, 13, 14, 301, 302, 307])) (by intro k hk; revert k; decide)
    have hv := fun l => (poscar_finish l).mono (T := (· ∈ [10, 13, 14, 301, 302, 307])) (by intro k hk; revert k; decide)
    suffices h : ExitsIn (· ∈ [10, 13, 14, 301, 302, 307]) (Poscar.init s) from h.of
    unfold Poscar.init Poscar.load Poscar.fromFile
    refine ExitsIn.ite (ExitsIn.exit (by decide)) (ExitsIn.bind ?_ hv)
    exits
  · intro k hk
    simp only [List.mem_cons, List.not_mem_nil, or_false] at hk
    rcases hk with rfl | rfl | rfl | rfl | rfl | rfl
    · exact ⟨{}, rfl⟩
    · exact ⟨{ dict := some [(c!"comment", .str []), (c!"unitcell", .none), (c!"sites", .sites [])] }, by decide +kernel⟩
    · exact ⟨{ path := some none }, rfl⟩
    · exact ⟨{ string := some c!"c\n1.0\n1 0 0\n0 1 0\n0 0 1\n1\nDirect\n0 0 0\n" }, by decide +kernel⟩
    · exact ⟨{ string := some c!"c\n1.0\n1 0 0\n0 1 0\n0 0 1\nSi\n1\nDirect\n0 0 0\nX\nY\n" }, by decide +kernel⟩
    · exact ⟨{ string := some c!"c\n-1.0\n1 0 0\n0 1 0\n0 0 1\nSi\n1\nDirect\n0 0 0\n" }, by decide +kernel⟩

/-- C116 for `modify(entry, value)` of a Poscar object. -/
theorem C116_poscar_modify : Exits (fun a : Poscar.Entries × Str × Poscar.Val => Poscar.modify a.1 a.2.1 a.2.2) [13, 305] := by
  constructor
  · intro a
    suffices h : ExitsIn (· ∈ [13, 305]) (Poscar.modify a.1 a.2.1 a.2.2) from h.of
    have i1 : ∀ e k, ExitsIn (· ∈ [13, 305]) (Poscar.lookup e k) := by intro e k; unfold Poscar.lookup; exits
    have i2 : ∀ e k v, ExitsIn (· ∈ [13, 305]) (Poscar.argOr e k v) := by intro e k v; unfold Poscar.argOr; exits
    unfold Poscar.modify Poscar.checkAllowed Poscar.checkEntry Poscar.checkComment checkCell checkSites
    exits
  · intro k hk
    simp only [List.mem_cons, List.not_mem_nil, or_false] at hk
    rcases hk with rfl | rfl
    · exact ⟨([], c!"sites", .other), by decide +kernel⟩
    · exact ⟨([], c!"x", .other), by decide +kernel⟩

/-- C116 for `modify(entry, value, site_number)` of a Poscar object. -/
theorem C116_poscar_site :
    Exits (fun a : Poscar.Entries × Str × Option Poscar.Elem × Int => modifySite a.1 a.2.1 a.2.2.1 a.2.2.2) [13, 304, 305] := by
  constructor
  · intro a
    suffices h : ExitsIn (· ∈ [13, 304, 305]) (modifySite a.1 a.2.1 a.2.2.1 a.2.2.2) from h.of
    have i1 : ∀ e k, ExitsIn (· ∈ [13, 304, 305]) (Poscar.lookup e k) := by intro e k; unfold Poscar.lookup; exits
    unfold modifySite Poscar.checkAllowed checkSite checkSiteNumber
    exits
  · intro k hk
    simp only [List.mem_cons, List.not_mem_nil, or_false] at hk
    rcases hk with rfl | rfl | rfl
    · exact ⟨([], c!"sites", some .other, 0), by decide +kernel⟩
    · exact ⟨([(c!"sites", .sites [])], c!"sites", none, 0), by decide +kernel⟩
    · exact ⟨([], c!"x", none, 0), by decide +kernel⟩

/-- C116 for `delete_site`. -/
theorem C116_poscar_delete : Exits (fun a : Poscar.Entries × Int => deleteSite a.1 a.2) [13, 304] := by
  constructor
  · intro a
    suffices h : ExitsIn (· ∈ [13, 304]) (deleteSite a.1 a.2) from h.of
    have i1 : ∀ e k, ExitsIn (· ∈ [13, 304]) (Poscar.lookup e k) := by intro e k; unfold Poscar.lookup; exits
    have i2 : ∀ e k v, ExitsIn (· ∈ [13, 304]) (Poscar.argOr e k v) := by intro e k v; unfold Poscar.argOr; exits
    unfold deleteSite checkSites checkSiteNumber
    exits
  · intro k hk
    simp only [List.mem_cons, List.not_mem_nil, or_false] at hk
    rcases hk with rfl | rfl
    · exact ⟨([(c!"sites", .other)], 0), by decide +kernel⟩
    · exact ⟨([(c!"sites", .sites [])], 0), by decide +kernel⟩

/-- C116 for `write` of a Poscar object. Missing: that only documented codes occur, which is false (`C116_violation_*`). -/
theorem C116_poscar_write_partial (prec : Nat) (conserve direct : Bool) : Exits (Poscar.write prec conserve direct) [13, 306] := by
  constructor
  · intro e
    suffices h : ExitsIn (· ∈ [13, 306]) (Poscar.write prec conserve direct e) from h.of
    have i1 : ∀ e k, ExitsIn (· ∈ [13, 306]) (Poscar.lookup e k) := by intro e k; unfold Poscar.lookup; exits
    have i2 : ∀ e k v, ExitsIn (· ∈ [13, 306]) (Poscar.argOr e k v) := by intro e k v; unfold Poscar.argOr; exits
    have i3 : ∀ e, ExitsIn (· ∈ [13, 306]) (Poscar.validate e) := by
      intro e; unfold Poscar.validate Poscar.checkComment checkCell checkSites; exits
    have i4 : ∀ x, ExitsIn (· ∈ [13, 306]) (takeSite x) := by intro x; unfold takeSite; exits
    have i5 : ∀ b e, ExitsIn (· ∈ [13, 306]) (sortAndGroup b e) := by intro b e; unfold sortAndGroup; exits
    have i6 : ∀ p d c x, ExitsIn (· ∈ [13, 306]) (velLine p d c x) := by intro p d c x; unfold velLine; exits
    have i7 : ∀ p x, ExitsIn (· ∈ [13, 306]) (predLine p x) := by intro p x; unfold predLine; exits
    have i8 : ∀ p d a b c, ExitsIn (· ∈ [13, 306]) (writeGrouped p d a b c) := by
      intro p d a b c; unfold writeGrouped; dsimp only; exits
    unfold Poscar.write
    exits
  · intro k hk
    simp only [List.mem_cons, List.not_mem_nil, or_false] at hk
    rcases hk with rfl | rfl
    · exact ⟨[(c!"comment", .other)], rfl⟩
    · exact ⟨[(c!"comment", .none), (c!"unitcell", .cell (some unitCell)), (c!"sites", .sites [.site ⟨c!"Si", ⟨0, 0, 0⟩, (true, true, true), none, none, false⟩])], rfl⟩

/-- C116: writing refuses exactly the sites in cartesian coordinates, with 306 (an object of `Site` objects that was made in direct
coordinates and then got another one by `modify`). -/
theorem C116_poscar_cartesian (prec : Nat) (conserve direct : Bool) (e : Poscar.Entries) (l : List Poscar.Site)
    (ht : Poscar.Typing.Typed e) (hs : e.get? c!"sites" = some (.sites (l.map .site))) :
    Poscar.write prec conserve direct e = .exit 306 ↔ ∃ s ∈ l, s.direct = false := by
  have hv := (Poscar.Typing.C114_validation e).2 ht
  obtain ⟨c, hc⟩ := ht.unitcell
  obtain ⟨w, hw⟩ : ∃ w, e.get? c!"comment" = some w := by
    rcases ht.comment with h | ⟨s, h⟩ <;> exact ⟨_, h⟩
  have key : (Res.mapM' takeSite (l.map .site) = .exit 306 ∧ ∃ s ∈ l, s.direct = false) ∨
      (Res.mapM' takeSite (l.map .site) = .ok l ∧ ∀ s ∈ l, s.direct = true) := by
    clear hs
    induction l with
    | nil => exact .inr ⟨rfl, by simp⟩
    | cons s l ih =>
      rw [List.map_cons, Res.mapM']
      cases hd : s.direct with
      | false =>
        left
        refine ⟨?_, s, by simp, hd⟩
        simp [takeSite, hd]
      | true =>
        have : takeSite (.site s) = .ok s := by simp [takeSite, hd]
        rw [this]
        rcases ih with ⟨h1, t, ht, htd⟩ | ⟨h1, h2⟩
        · left; rw [h1]; exact ⟨rfl, t, by simp [ht], htd⟩
        · right; rw [h1]; exact ⟨rfl, by simpa [hd] using h2⟩
  unfold Poscar.write sortAndGroup Poscar.lookup
  rw [hv, hw, hc, hs]
  simp only [Res.ok_bind]
  rcases key with ⟨h1, h2⟩ | ⟨h1, h2⟩
  · rw [h1]; exact ⟨fun _ => h2, fun _ => rfl⟩
  · rw [h1]
    simp only [Res.ok_bind]
    constructor
    · intro h
      have i6 : ∀ p d c x, ExitsIn (· ∈ ([] : List Nat)) (velLine p d c x) := by intro p d c x; unfold velLine; exits
      have i7 : ∀ p x, ExitsIn (· ∈ ([] : List Nat)) (predLine p x) := by intro p x; unfold predLine; exits
      have i8 : ∀ p d a b c, ExitsIn (· ∈ ([] : List Nat)) (writeGrouped p d a b c) := by
        intro p d a b c; unfold writeGrouped; dsimp only; exits
      exact absurd ((i8 _ _ _ _ _).of _ h) (by simp)
    · rintro ⟨s, hm, hd⟩
      rw [h2 s hm] at hd; cases hd

/-- Non-vacuity: such an object. -/
example : Poscar.Typing.Typed [(c!"comment", .none), (c!"unitcell", .cell (some unitCell)), (c!"sites", .sites ([⟨c!"Si", ⟨0, 0, 0⟩, (true, true, true), none, none, false⟩].map .site))] :=
  ⟨.inl rfl, ⟨unitCell, rfl⟩, ⟨_, rfl⟩⟩

/-- C116 is false for a missing entry: code 12 is documented for it, but the message is looked up under a wrong key, so that it is a
`KeyError`, for every dictionary without one of the entries (here those with `Site` objects in direct coordinates). -/
theorem C116_violation_poscar (e : Poscar.Entries) (l : List Poscar.Site) (hs : e.get? c!"sites" = some (.sites (l.map .site)))
    (hd : ∀ s ∈ l, s.direct = true) (h : e.get? c!"comment" = none ∨ (e.get? c!"comment" = some (.str []) ∧ e.get? c!"unitcell" = none)) :
    Poscar.init { dict := some e } = .raise .keyError := by
  have hm : Res.mapM' (convertElem (cellOf e)) (l.map .site) = .ok (l.map .site) := by
    rw [Res.mapM'_eq_ok, List.forall₂_map_left_iff, List.forall₂_map_right_iff]
    apply List.forall₂_same.2
    intro s hm
    unfold convertElem
    simp only [hd s hm, if_true]
  have hf : Poscar.fromDict e = .ok (e.set c!"sites" (.sites (l.map .site))) := by
    unfold Poscar.fromDict Poscar.lookup
    rw [hs]
    simp only [Res.ok_bind, hm]
  show (Poscar.fromDict e >>= fun e => _) = _
  rw [hf, Res.ok_bind]
  have h1 : ∀ k, k ≠ c!"sites" → (e.set c!"sites" (.sites (l.map .site))).get? k = e.get? k := fun k hk => by
    rw [Dict.get?_set, if_neg (Ne.symm hk)]
  unfold Poscar.validate Poscar.checkComment checkCell Poscar.argOr Poscar.lookup
  rw [if_pos rfl, if_pos rfl, h1 _ (by decide), h1 _ (by decide)]
  rcases h with h | ⟨h, h2⟩
  · rw [h]; rfl
  · rw [h, h2]; rfl

end Poscar

/-! ### INCAR -/

section Incar
open Verif.Incar

theorem foldl_exits {α β : Type} {S : Nat → Prop} {f : β → α → Res β} (hf : ∀ b a, ExitsIn S (f b a)) (l : List α) (b : β) :
    ExitsIn S (Res.foldlM' f b l) := by
  induction l generalizing b with
  | nil => exact ExitsIn.ok _
  | cons a l ih =>
    unfold Res.foldlM'
    have := hf b a
    cases h : f b a with
    | ok c => exact ih c
    | exit k => exact ExitsIn.exit (this.of k h)
    | raise e => exact ExitsIn.raise _

theorem incar_token (F : FloatEnv) (w : Str) {S : Nat → Prop} : ExitsIn S (cleanToken F w) := by
  unfold cleanToken; exits

theorem incar_string (F : FloatEnv) (v : Str) : ExitsIn (· ∈ [104]) (cleanString F v) := by
  unfold cleanString
  have h : ExitsIn (· ∈ [104]) (Res.mapM' (cleanToken F) (words v)) := ExitsIn.mapM' (fun w => incar_token F w) _
  cases hr : Res.mapM' (cleanToken F) (words v) with
  | ok r => dsimp only; exits
  | exit k => exact ExitsIn.exit (h.of k hr)
  | raise e => exact ExitsIn.raise _

theorem incar_entry (F : FloatEnv) (t : Str) (v : Value) (c : Option Str) : ExitsIn (· ∈ [104, 105]) (cleanEntry F t v c) := by
  unfold cleanEntry
  split
  · exact ExitsIn.raise _
  · dsimp only
    split
    · split
      · exact ExitsIn.ok _
      · rename_i s _
        have h := incar_string F s
        cases hr : cleanString F s with
        | ok r => exact ExitsIn.ok _
        | exit k =>
          refine ExitsIn.exit ?_
          have := h.of k hr
          simp only [List.mem_singleton] at this
          simp [this]
        | raise e => exact ExitsIn.raise _
    · exact ExitsIn.exit (by decide)
    · exact ExitsIn.ok _

/-- A string value is never refused with 105. -/
theorem incar_entry_string (F : FloatEnv) (t s : Str) (c : Option Str) : ExitsIn (· ∈ [104]) (cleanEntry F t (.one (.str s)) c) := by
  unfold cleanEntry
  split
  · exact ExitsIn.raise _
  · dsimp only
    split
    · exact ExitsIn.ok _
    · have h := incar_string F s
      cases hr : cleanString F s with
      | ok r => exact ExitsIn.ok _
      | exit k => exact ExitsIn.exit (h.of k hr)
      | raise e => exact ExitsIn.raise _

theorem incar_fromDict (F : FloatEnv) (items : List (Str × Value)) : ExitsIn (· ∈ [103, 104, 105]) (Incar.fromDict F items) := by
  unfold Incar.fromDict
  refine foldl_exits ?_ _ _
  intro d p
  have h : ExitsIn (· ∈ [103, 104, 105]) (dictItem F p.1 p.2) := by
    have := fun t v c => (incar_entry F t v c).mono (T := (· ∈ [103, 104, 105])) (by intro k hk; revert k; decide)
    unfold dictItem; exits
  cases hr : dictItem F p.1 p.2 with
  | ok r => exact ExitsIn.ok _
  | exit k => exact ExitsIn.exit (h.of k hr)
  | raise e => exact ExitsIn.raise _

theorem incar_init_exits (F : FloatEnv) (allowed : List Str) (b : Bool) (s : Incar.Sources) {S : Nat → Prop} (h10 : S 10) (h14 : S 14)
    (i1 : ∀ l, ExitsIn S (Incar.fromList F l)) (i2 : ∀ l, ExitsIn S (Incar.fromDict F l)) (i3 : ∀ d, ExitsIn S (Incar.validate b allowed d)) :
    ExitsIn S (Incar.init F allowed b s) := by
  have i4 : ∀ l, ExitsIn S (Incar.parseSource F s l) := by
    intro l; unfold Incar.parseSource
    split
    · exact i2 _
    · exact i1 _
  have i5 : ExitsIn S (Incar.fileLines s) := by
    unfold Incar.fileLines
    split
    · exact ExitsIn.ok _
    · split
      · exact ExitsIn.ok _
      · exact ExitsIn.exit h14
      · exact ExitsIn.raise _
  unfold Incar.init Incar.loadEntries
  refine ExitsIn.ite (ExitsIn.exit h10) (ExitsIn.ite (ExitsIn.exit h10) (ExitsIn.bind (ExitsIn.ite (ExitsIn.bind i5 i4) (i4 _)) fun d => ExitsIn.bind (i3 d) fun _ => ExitsIn.ok _))

/-- C116 for the text of an INCAR, as a file (whatever the rounding of numbers): with the check of tags 100, 101, 102 and 104 besides
those of the sources. -/
theorem C116_incar_text (F : FloatEnv) (allowed : List Str) (ht : c!"foobar" ∉ allowed) :
    Exits (fun t : Option Str => Incar.init F allowed true { path := some t }) [14, 100, 101, 102, 104] := by
  constructor
  · intro t
    suffices h : ExitsIn (· ∈ [14, 100, 101, 102, 104]) (Incar.init F allowed true { path := some t }) from h.of
    have i1 : ∀ l, ExitsIn (· ∈ [14, 100, 101, 102, 104]) (Incar.fromList F l) := by
      intro l
      refine ⟨fun k hk => ?_⟩
      rcases (C11_failures_partial F l).1 k hk with rfl | rfl | rfl <;> decide
    have i3 : ∀ d, ExitsIn (· ∈ [14, 100, 101, 102, 104]) (Incar.validate true allowed d) := by
      clear ht i1; intro d; unfold Incar.validate; exits
    cases t with
    | none => exact ExitsIn.exit (by decide)
    | some t =>
      exact ExitsIn.bind (r := Incar.fromList F (readlines t)) (i1 _) fun d => ExitsIn.bind (i3 d) fun _ => ExitsIn.ok _
  · intro k hk
    simp only [List.mem_cons, List.not_mem_nil, or_false] at hk
    have run : ∀ t, Incar.init F allowed true { path := some (some t) } =
        (Incar.fromList F (readlines t) >>= fun entries => Incar.validate true allowed entries >>= fun _ => .ok entries) := fun _ => rfl
    rcases hk with rfl | rfl | rfl | rfl | rfl
    · exact ⟨none, rfl⟩
    · refine ⟨some c!"FOOBAR = text", ?_⟩
      rw [run, show Incar.fromList F (readlines c!"FOOBAR = text") = .ok [(c!"foobar", ⟨c!"foobar", .one (.str c!"text"), none⟩)] from rfl, Res.ok_bind]
      unfold Incar.validate
      simp [Dict.keys, ht]
    · exact ⟨some c!"A = B = C", rfl⟩
    · exact ⟨some c!"A", rfl⟩
    · refine ⟨some c!"A = text 1", rfl⟩

/-- C116 for `Incar(...)` in general. -/
theorem C116_incar (F : FloatEnv) (allowed : List Str) (ht : c!"foobar" ∉ allowed) :
    Exits (fun a : Bool × Incar.Sources => Incar.init F allowed a.1 a.2) [10, 14, 100, 101, 102, 103, 104, 105] := by
  constructor
  · intro a
    suffices h : ExitsIn (· ∈ [10, 14, 100, 101, 102, 103, 104, 105]) (Incar.init F allowed a.1 a.2) from h.of
    have i1 : ∀ l, ExitsIn (· ∈ [10, 14, 100, 101, 102, 103, 104, 105]) (Incar.fromList F l) := by
      intro l
      refine ⟨fun k hk => ?_⟩
      rcases (C11_failures_partial F l).1 k hk with rfl | rfl | rfl <;> decide
    have i2 := fun l => (incar_fromDict F l).mono (T := (· ∈ [10, 14, 100, 101, 102, 103, 104, 105])) (by intro k hk; revert k; decide)
    refine incar_init_exits F allowed _ _ (by decide) (by decide) i1 i2 fun d => ?_
    unfold Incar.validate
    exact ExitsIn.ite (ExitsIn.ok _) (ExitsIn.ite (ExitsIn.ok _) (ExitsIn.exit (by decide)))
  · intro k hk
    simp only [List.mem_cons, List.not_mem_nil, or_false] at hk
    have ht' := (C116_incar_text F allowed ht).all
    rcases hk with rfl | rfl | rfl | rfl | rfl | rfl | rfl | rfl
    · exact ⟨(true, {}), rfl⟩
    · exact ⟨(true, { path := some none }), rfl⟩
    · obtain ⟨t, h⟩ := ht' 100 (by decide); exact ⟨(true, { path := some t }), h⟩
    · obtain ⟨t, h⟩ := ht' 101 (by decide); exact ⟨(true, { path := some t }), h⟩
    · obtain ⟨t, h⟩ := ht' 102 (by decide); exact ⟨(true, { path := some t }), h⟩
    · exact ⟨(true, { dict := some [(c!"nsw", .one (.str c!"1 # a # b"))] }), rfl⟩
    · obtain ⟨t, h⟩ := ht' 104 (by decide); exact ⟨(true, { path := some t }), h⟩
    · exact ⟨(true, { dict := some [(c!"nsw", .other)] }), rfl⟩

/-- C116: without the check of tags 100 does not occur. -/
theorem C116_incar_unchecked (F : FloatEnv) (allowed : List Str) :
    Exits (fun s : Incar.Sources => Incar.init F allowed false s) [10, 14, 101, 102, 103, 104, 105] := by
  constructor
  · intro s
    suffices h : ExitsIn (· ∈ [10, 14, 101, 102, 103, 104, 105]) (Incar.init F allowed false s) from h.of
    have i1 : ∀ l, ExitsIn (· ∈ [10, 14, 101, 102, 103, 104, 105]) (Incar.fromList F l) := by
      intro l
      refine ⟨fun k hk => ?_⟩
      rcases (C11_failures_partial F l).1 k hk with rfl | rfl | rfl <;> decide
    have i2 := fun l => (incar_fromDict F l).mono (T := (· ∈ [10, 14, 101, 102, 103, 104, 105])) (by intro k hk; revert k; decide)
    have i3 : ∀ d, ExitsIn (· ∈ [10, 14, 101, 102, 103, 104, 105]) (Incar.validate false allowed d) := fun d => ExitsIn.ok _
    exact incar_init_exits F allowed _ _ (by decide) (by decide) i1 i2 i3
  · intro k hk
    simp only [List.mem_cons, List.not_mem_nil, or_false] at hk
    rcases hk with rfl | rfl | rfl | rfl | rfl | rfl | rfl
    · exact ⟨{}, rfl⟩
    · exact ⟨{ path := some none }, rfl⟩
    · exact ⟨{ string := some c!"A = B = C" }, rfl⟩
    · exact ⟨{ string := some c!"A" }, rfl⟩
    · exact ⟨{ dict := some [(c!"nsw", .one (.str c!"1 # a # b"))] }, rfl⟩
    · exact ⟨{ string := some c!"A = text 1" }, rfl⟩
    · exact ⟨{ dict := some [(c!"nsw", .other)] }, rfl⟩

/-- C116 for `modify` of an Incar object; strings are never refused with 105. -/
theorem C116_incar_modify (F : FloatEnv) :
    Exits (fun a : Incar.Entries × Str × Value × Option Str => Incar.modify F a.1 a.2.1 a.2.2.1 a.2.2.2) [104, 105] ∧
    Exits (fun a : Incar.Entries × Str × Str × Option Str => Incar.modify F a.1 a.2.1 (.one (.str a.2.2.1)) a.2.2.2) [104] := by
  constructor
  · constructor
    · intro a k hk
      have h := incar_entry F a.2.1 a.2.2.1 a.2.2.2
      unfold Incar.modify at hk
      cases hr : cleanEntry F a.2.1 a.2.2.1 a.2.2.2 with
      | ok r => rw [hr] at hk; cases hk
      | exit j => rw [hr] at hk; cases hk; exact h.of _ hr
      | raise e => rw [hr] at hk; cases hk
    · intro k hk
      simp only [List.mem_cons, List.not_mem_nil, or_false] at hk
      rcases hk with rfl | rfl
      · exact ⟨([], c!"a", .one (.str c!"text 1"), none), rfl⟩
      · exact ⟨([], c!"a", .other, none), rfl⟩
  · constructor
    · intro a k hk
      have h := incar_entry_string F a.2.1 a.2.2.1 a.2.2.2
      unfold Incar.modify at hk
      cases hr : cleanEntry F a.2.1 (.one (.str a.2.2.1)) a.2.2.2 with
      | ok r => rw [hr] at hk; cases hk
      | exit j => rw [hr] at hk; cases hk; exact h.of _ hr
      | raise e => rw [hr] at hk; cases hk
    · intro k hk
      simp only [List.mem_cons, List.not_mem_nil, or_false] at hk
      subst hk
      exact ⟨([], c!"a", c!"text 1", none), rfl⟩

end Incar

end Verif.ExitCodes
