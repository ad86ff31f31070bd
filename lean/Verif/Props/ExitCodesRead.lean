import Verif.Props.ExitCodes
import Verif.Props.Outcar
import Verif.Model.Doscar
import Verif.Model.Eigenval
import Verif.Model.Chgcar
import Verif.Model.Potcar
import Verif.Model.Stream
import Verif.Model.VasprunApi
/-! # Which codes end the process: the parsers of output files (C116) -/
set_option autoImplicit false
namespace Verif.ExitCodes
open Verif Verif.Utils

/-- The sources of a parser: a path (`some none`: no such file) and a file handler. -/
abbrev Source := Option (Option Str) × Option Str

/-! ### OUTCAR -/

/-- C116 for `Outcar(...)`. -/
theorem C116_outcar : Exits (fun a : Source => Outcar.init a.1 a.2) [10, 14, 600] := by
  constructor
  · intro a
    suffices h : ExitsIn (· ∈ [10, 14, 600]) (Outcar.init a.1 a.2) from h.of
    have i1 : ∀ s l, ExitsIn (· ∈ [10, 14, 600]) (Outcar.scan s l) := fun s l => Outcar.scan_exits s l
    have i2 : ∀ f i a b it st, ExitsIn (· ∈ [10, 14, 600]) (Outcar.verdict f i a b it st) := fun f i a b it st => Outcar.verdict_exits f i a b it st
    have i3 : ∀ d l, ExitsIn (· ∈ [10, 14, 600]) (Outcar.stats d l) := fun d l => Outcar.stats_exits d l
    unfold Outcar.init Outcar.fromList
    exits
  · intro k hk
    simp only [List.mem_cons, List.not_mem_nil, or_false] at hk
    rcases hk with rfl | rfl | rfl
    · exact ⟨(none, none), rfl⟩
    · exact ⟨(some none, none), rfl⟩
    · exact ⟨(none, some []), rfl⟩

/-! ### DOSCAR, EIGENVAL, CHGCAR, POTCAR -/

theorem sources_exits {α : Type} {f : Str → Res α} (hf : ∀ t k, f t ≠ .exit k) :
    Exits (fun a : Source => match a.2 with
      | some t => f t
      | none => match a.1 with
        | some (some t) => f t
        | some none => .exit 14
        | none => .exit 10) [10, 14] := by
  constructor
  · rintro ⟨p, h⟩ k hk
    dsimp only at hk
    rcases h with _ | t
    · rcases p with _ | _ | t
      · cases hk; decide
      · cases hk; decide
      · exact absurd hk (hf t k)
    · exact absurd hk (hf t k)
  · intro k hk
    simp only [List.mem_cons, List.not_mem_nil, or_false] at hk
    rcases hk with rfl | rfl
    · exact ⟨(none, none), rfl⟩
    · exact ⟨(some none, none), rfl⟩

/-- No exit code at all. -/
theorem ExitsIn.never {α : Type} {r : Res α} (h : ExitsIn (fun _ => False) r) (k : Nat) : r ≠ .exit k := fun hk => h.of k hk

section Readers
variable {S : Nat → Prop}

theorem idx' {α : Type} (l : List α) (i : Nat) : ExitsIn S (Kpoints.idx l i) := Kpoints.idx_exits l i
theorem toFloat' (w : Str) : ExitsIn S (Kpoints.toFloat w) := Kpoints.toFloat_exits w
theorem toInt' (w : Str) : ExitsIn S (Kpoints.toInt w) := Kpoints.toInt_exits w

theorem lineToType' {α : Type} {f : Str → Res α} (hf : ∀ w, ExitsIn S (f w)) (l : Str) : ExitsIn S (lineToType f l) := by
  unfold lineToType
  have h := ExitsIn.mapM' hf (words l)
  cases hr : Res.mapM' f (words l) with
  | ok r => rcases r with _ | ⟨a, _ | ⟨b, r⟩⟩ <;> exact ExitsIn.ok _
  | exit k => exact ExitsIn.exit (h.of k hr)
  | raise e => exact ExitsIn.raise _

theorem unpack' {α : Type} (n : Nat) (x : OneOrMany α) : ExitsIn S (Doscar.unpack n x) := by
  unfold Doscar.unpack; exits

theorem cartesian' (x : OneOrMany Str) : ExitsIn S (Doscar.cartesianOf x) := by
  unfold Doscar.cartesianOf; exits

theorem asRows' (n : Nat) (l : List (OneOrMany Rat)) : ExitsIn S (Doscar.asRows n l) := by
  induction l with
  | nil => exact ExitsIn.ok _
  | cons a l ih => cases a <;> unfold Doscar.asRows <;> exits

theorem asBlocks' (n m : Nat) (l : List (List (OneOrMany Rat))) : ExitsIn S (Doscar.asBlocks n m l) := by
  induction l with
  | nil => exact ExitsIn.ok _
  | cons a l ih =>
    have h := asRows' (S := S) n a
    unfold Doscar.asBlocks; exits

theorem doscar_list (b : Bool) (lines : List Str) : ExitsIn S (Doscar.fromList b lines) := by
  have i1 : ∀ (l : List Str) i, ExitsIn S (Kpoints.idx l i) := idx'
  have i2 : ∀ (l : List (OneOrMany Rat)) i, ExitsIn S (Kpoints.idx l i) := idx'
  have i3 : ∀ l, ExitsIn S (lineToType Kpoints.toFloat l) := lineToType' toFloat'
  have i4 : ∀ l, ExitsIn S (lineToType Kpoints.toInt l) := lineToType' toInt'
  have i5 : ∀ l, ExitsIn S (lineToType (α := Str) Res.ok l) := lineToType' fun _ => ExitsIn.ok _
  have i6 : ∀ n (x : OneOrMany Int), ExitsIn S (Doscar.unpack n x) := unpack'
  have i7 : ∀ n (x : OneOrMany Rat), ExitsIn S (Doscar.unpack n x) := unpack'
  have i8 : ∀ x, ExitsIn S (Doscar.cartesianOf x) := cartesian'
  have i9 : ∀ n l, ExitsIn S (Doscar.asRows n l) := asRows'
  have i10 : ∀ n m l, ExitsIn S (Doscar.asBlocks n m l) := asBlocks'
  have i11 : ∀ x, ExitsIn S (Doscar.lenOf x) := by intro x; unfold Doscar.lenOf; exits
  have i12 : ∀ d n, ExitsIn S (Doscar.totalDos d n) := by intro d n; unfold Doscar.totalDos; exits
  have i13 : ∀ n b, ExitsIn S (Doscar.getNumSpin n b) := by
    clear i1 i2 i3 i4 i5 i6 i7 i8 i9 i10 i11 i12; intro n b; unfold Doscar.getNumSpin; exits
  have i14 : ∀ n b, ExitsIn S (Doscar.getDtypePdos n b) := by
    clear i1 i2 i3 i4 i5 i6 i7 i8 i9 i10 i11 i12 i13; intro n b; unfold Doscar.getDtypePdos; exits
  have i15 : ∀ b h d n k, ExitsIn S (Doscar.partialDos b h d n k) := by intro b h d n k; unfold Doscar.partialDos; dsimp only; exits
  unfold Doscar.fromList; exits

theorem eigenval_list (lines : List Str) : ExitsIn S (Eigenval.fromList lines) := by
  have i1 : ∀ (l : List Str) i, ExitsIn S (Kpoints.idx l i) := idx'
  have i3 : ∀ l, ExitsIn S (lineToType Kpoints.toFloat l) := lineToType' toFloat'
  have i4 : ∀ l, ExitsIn S (lineToType Kpoints.toInt l) := lineToType' toInt'
  have i5 : ∀ l, ExitsIn S (lineToType (α := Str) Res.ok l) := lineToType' fun _ => ExitsIn.ok _
  have i6 : ∀ n (x : OneOrMany Int), ExitsIn S (Doscar.unpack n x) := unpack'
  have i8 : ∀ x, ExitsIn S (Doscar.cartesianOf x) := cartesian'
  have i9 : ∀ n, ExitsIn S (Eigenval.size n) := by intro n; unfold Eigenval.size; exits
  have j1 : ∀ w, ExitsIn S (Kpoints.toFloat w) := toFloat'
  have j2 : ∀ w, ExitsIn S (Kpoints.toInt w) := toInt'
  have i10 : ∀ n v, ExitsIn S (Eigenval.broadcast n v) := by
    clear i1 i3 i4 i5 i6 i8 i9 j1 j2; intro n v; unfold Eigenval.broadcast; exits
  have i11 : ∀ n v, ExitsIn S (Eigenval.index n v) := by
    clear i1 i3 i4 i5 i6 i8 i9 j1 j2 i10; intro n v; unfold Eigenval.index; exits
  have i12 : ∀ a b c d e, ExitsIn S (Eigenval.readBand a b c d e) := by
    intro a b c d e; unfold Eigenval.readBand; exits
  have i13 : ∀ a b c d, ExitsIn S (Eigenval.readBlock a b c d) := by
    intro a b c d; unfold Eigenval.readBlock
    have i : ∀ x v r, ExitsIn S (Res.foldlM' (Eigenval.readBand a b x) v r) := fun x v r => foldl_exits (i12 a b x) r v
    clear i1 i3 i4 i5 i6 i8 i9 i11 i12
    exits
  have i14 : ∀ a b c l, ExitsIn S (Res.foldlM' (Eigenval.readBlock a b) c l) := fun a b c l => foldl_exits (i13 a b) l c
  clear i10 i11 i12 i13 j1 j2
  unfold Eigenval.fromList; exits

theorem chgcar_text (t : Str) : ExitsIn S (Chgcar.fromText t) := by
  have i1 : ∀ (l : List Str) i, ExitsIn S (Kpoints.idx l i) := idx'
  have j1 : ∀ w, ExitsIn S (Kpoints.toFloat w) := toFloat'
  have j2 : ∀ w, ExitsIn S (Kpoints.toInt w) := toInt'
  have i2 : ∀ w, ExitsIn S (Chgcar.toNumber w) := by clear i1 j1 j2; intro w; unfold Chgcar.toNumber; exits
  have i3 : ∀ l, ExitsIn S (Chgcar.vector l) := by clear i1 j1 j2 i2; intro w; unfold Chgcar.vector; exits
  have i4 : ∀ s h i, ExitsIn S (Chgcar.readVector s h i) := by intro s h i; unfold Chgcar.readVector; exits
  have i5 : ∀ a b c v p, ExitsIn S (Chgcar.density a b c v p) := by
    clear i1 j1 j2 i3 i4; intro a b c v p; unfold Chgcar.density; exits
  have i6 : ∀ a b c v p, ExitsIn S (Chgcar.magnetization a b c v p) := by
    clear i1 j1 j2 i2 i3 i4; intro a b c v p; unfold Chgcar.magnetization; exits
  have i7 : ∀ p, ExitsIn S (Chgcar.second p) := by
    clear i1 j1 j2 i2 i3 i4 i5 i6; intro p; unfold Chgcar.second; exits
  unfold Chgcar.fromText; exits

theorem bool' (v : Str) : ExitsIn S (Potcar.toBool v) := by
  unfold Potcar.toBool; exits

theorem potcar_convert (k : Str) (f : Str → Res Potcar.Value) (h : Potcar.converter k = some f) (v : Str) : ExitsIn S (f v) := by
  have j1 : ∀ w, ExitsIn S (Kpoints.toFloat w) := toFloat'
  have j2 : ∀ w, ExitsIn S (Kpoints.toInt w) := toInt'
  unfold Potcar.converter at h
  split at h
  · cases h; exact ExitsIn.ok _
  · split at h
    · cases h; exact bool' _
    · split at h
      · cases h; exact ExitsIn.ite (ExitsIn.raise _) (ExitsIn.bind (j2 _) fun _ => ExitsIn.ok _)
      · split at h
        · cases h; exact ExitsIn.bind (j1 _) fun _ => ExitsIn.ok _
        · split at h
          · cases h; exact ExitsIn.ite (ExitsIn.raise _) (ExitsIn.bind (ExitsIn.mapM' j1 _) fun _ => ExitsIn.ok _)
          · cases h

theorem potcar_collect (l : List (Str × Str)) (d : Dict Str Potcar.Value) : ExitsIn S (Potcar.collect d l) := by
  induction l generalizing d with
  | nil => exact ExitsIn.ok _
  | cons a l ih =>
    unfold Potcar.collect
    cases h : Potcar.converter a.1 with
    | none => exact ih d
    | some f => exact ExitsIn.bind (potcar_convert _ f h _) fun x => ih _

theorem potcar_text (t : Str) : ExitsIn S (Potcar.fromText t) := by
  have i1 : ∀ t, ExitsIn S (Potcar.region t) := by intro t; unfold Potcar.region; exits
  have i2 : ∀ d l, ExitsIn S (Potcar.collect d l) := fun d l => potcar_collect l d
  unfold Potcar.fromText; exits

end Readers

/-- C116 for `Doscar(...)`. -/
theorem C116_doscar (nonCollinear : Bool) : Exits (fun a : Source => Doscar.init a.1 a.2 nonCollinear) [10, 14] :=
  sources_exits fun t k => ExitsIn.never (doscar_list nonCollinear (readlines t)) k

/-- C116 for `Eigenval(...)`. -/
theorem C116_eigenval : Exits (fun a : Source => Eigenval.init a.1 a.2) [10, 14] :=
  sources_exits fun t k => ExitsIn.never (eigenval_list (readlines t)) k

/-- C116 for `Chgcar(...)`. -/
theorem C116_chgcar : Exits (fun a : Source => Chgcar.init a.1 a.2) [10, 14] :=
  sources_exits fun t k => ExitsIn.never (chgcar_text t) k

/-- C116 for `Potcar(...)`: without source it is a `ValueError`. -/
theorem C116_potcar : Exits (fun a : Source => Potcar.init a.1 a.2) [14] := by
  constructor
  · rintro ⟨p, h⟩ k hk
    dsimp only at hk
    rcases h with _ | t
    · rcases p with _ | _ | t
      · cases hk
      · cases hk; decide
      · exact absurd hk (ExitsIn.never (potcar_text t) k)
    · exact absurd hk (ExitsIn.never (potcar_text t) k)
  · intro k hk
    simp only [List.mem_cons, List.not_mem_nil, or_false] at hk
    subst hk
    exact ⟨(some none, none), rfl⟩

/-! ### the standard stream -/

section Stream
open Verif.Stream
variable {Rx : Type} {S : Nat → Prop}

theorem stream_trigger (E : Engine Rx) (short : Str) (c : Conf Rx) : ExitsIn S (mkTrigger E short c) := by
  have i1 : ∀ x : Stream.Obj Rx, ExitsIn S (setKind x) := by intro x; unfold setKind; exits
  have i2 : ∀ x, ExitsIn S (setRegex E x) := by clear i1; intro x; unfold setRegex; exits
  have i3 : ∀ x : Stream.Obj Rx, ExitsIn S (setMessage x) := by clear i1 i2; intro x; unfold setMessage; exits
  have i4 : ∀ x : Option (Stream.Obj Rx), ExitsIn S (setSuggestion x) := by clear i1 i2 i3; intro x; unfold setSuggestion; exits
  have i5 : ∀ x : Option (Stream.Obj Rx), ExitsIn S (setLocation x) := by clear i1 i2 i3 i4; intro x; unfold setLocation; exits
  have i6 : ∀ x : Option (Stream.Obj Rx), ExitsIn S (setBool x) := by clear i1 i2 i3 i4 i5; intro x; unfold setBool; exits
  unfold mkTrigger; exits

theorem stream_kind (c : Conf Rx) : ExitsIn S (kindOf c) := by unfold kindOf; exits

theorem stream_kinds (l : Config Rx) (ks : List Str) : ExitsIn S (setStreams ks l) := by
  induction l generalizing ks with
  | nil => exact ExitsIn.ok _
  | cons a l ih =>
    unfold setStreams
    exact ExitsIn.bind (stream_kind _) fun k => ExitsIn.ite (ih _) (ih _)

theorem stream_build (E : Engine Rx) (ks : List Str) (c : Config Rx) : ExitsIn S (build E ks c) := by
  refine foldl_exits (fun tt kind => foldl_exits (fun tt p => ?_) _ _) _ _
  unfold buildOne
  have i1 := stream_kind (S := S) p.2
  have i2 := stream_trigger (S := S) E p.1 p.2
  exits

theorem stream_scan (E : Engine Rx) (h : Bool) (all : List ((Str × Nat) × Trigger Rx)) (st : State Rx) (lines : List Str) :
    ExitsIn S (scan E h all st lines) := by
  refine foldl_exits (fun st line => foldl_exits (fun st p => ?_) _ _) _ _
  have i1 : ExitsIn S (checkLine E p.2 line) := by unfold checkLine; exits
  unfold checkOne; exits

/-- C116 for `Stream(...)`, whatever the configuration, if the shipped one can be used. -/
theorem C116_stream (E : Engine Rx) (dflt : Config Rx) (user : Option (Config Rx)) (history : Bool)
    (kinds : List Str) (hk : setStreams [] (user.elim dflt (update dflt)) = .ok kinds)
    (tt : Table Rx × Table Rx) (hb : build E kinds (user.elim dflt (update dflt)) = .ok tt) :
    Exits (fun a : Source => Stream.init E dflt user history a.1 a.2) [10, 14] := by
  constructor
  · intro a
    suffices h : ExitsIn (· ∈ [10, 14]) (Stream.init E dflt user history a.1 a.2) from h.of
    unfold Stream.init
    refine ExitsIn.ite (ExitsIn.exit (by decide)) ?_
    refine ExitsIn.bind (stream_kinds _ _) fun ks => ExitsIn.bind (stream_build E _ _) fun tt => ExitsIn.bind ?_ fun l => ?_
    · clear hb hk; exits
    · exact ExitsIn.bind (stream_scan E _ _ _ _) fun st => ExitsIn.ok _
  · intro k h
    simp only [List.mem_cons, List.not_mem_nil, or_false] at h
    rcases h with rfl | rfl
    · exact ⟨(none, none), rfl⟩
    · refine ⟨(some none, none), ?_⟩
      show Stream.init E dflt user history (some none) none = .exit 14
      unfold Stream.init
      rw [if_neg (by simp)]
      cases user <;> (dsimp only [Option.elim] at hk hb ⊢; rw [hk, Res.ok_bind, hb, Res.ok_bind]; rfl)

end Stream

/-! ### vasprun.xml -/

section Vasprun
open Verif.Xml Verif.Vasprun Verif.VasprunEvent Verif.VasprunApi
variable {S : Nat → Prop}

seal findAny findRel

theorem fromWords' (l : List Str) : ExitsIn S (fromWords l) := by
  induction l with
  | nil => exact ExitsIn.ok _
  | cons w l ih => unfold fromWords; exits

theorem fromText' (e : Node) : ExitsIn S (fromText e) := by
  have h := fromWords' (S := S)
  unfold fromText; exits

theorem arrayI' (e : Node) : ExitsIn S (convertArrayI e) := by unfold convertArrayI; exits

theorem convert2D' (es : List Node) (n : Nat) : ExitsIn S (convert2D es n) :=
  ExitsIn.mapM' (fun e => ExitsIn.bind (fromText' e) fun _ => ExitsIn.ok _) es

theorem convert1D' (h : S 509) (es : List Node) : ExitsIn S (convert1D es) := by
  refine ExitsIn.mapM' (fun e => ?_) es
  unfold single
  refine ExitsIn.bind (fromText' e) fun xs => ?_
  rcases xs with _ | ⟨x, _ | ⟨y, r⟩⟩
  · exact ExitsIn.exit h
  · exact ExitsIn.ok _
  · exact ExitsIn.exit h

theorem convertF' (h : S 509) (e : Node) : ExitsIn S (convertF e) := by
  unfold convertF
  cases e.text with
  | none => exact ExitsIn.ok _
  | some s => exact ExitsIn.ite (ExitsIn.exit h) (ExitsIn.bind (toFloat' _) fun _ => ExitsIn.ok _)

theorem convertI' (h : S 509) (e : Node) : ExitsIn S (convertI e) := by
  unfold convertI
  cases e.text with
  | none => exact ExitsIn.ok _
  | some s => exact ExitsIn.ite (ExitsIn.exit h) (ExitsIn.bind (toInt' _) fun _ => ExitsIn.ok _)

theorem species' (h : S 506) (es : List Node) : ExitsIn S (convertSpecies es) := by
  refine ExitsIn.mapM' (fun e => ?_) es
  unfold speciesOf
  cases e.text with
  | none => exact ExitsIn.raise _
  | some s =>
    dsimp only
    cases words s with
    | nil => exact ExitsIn.raise _
    | cons w r =>
      dsimp only
      cases Dict.get? elementTable (lower w) with
      | none => exact ExitsIn.exit h
      | some z => exact ExitsIn.ok _

theorem split' {α : Type} (n : Nat) (l : List α) : ExitsIn S (split n l) :=
  ExitsIn.ite (ExitsIn.raise _) (ExitsIn.ite (ExitsIn.ok _) (ExitsIn.raise _))

theorem eigenRows' (h : S 509) (c n : Nat) (es : List Node) : ExitsIn S (eigenRows c n es) :=
  ExitsIn.bind (ExitsIn.ite (convert2D' _ _) (ExitsIn.bind (convert1D' h _) fun _ => ExitsIn.ok _)) fun _ => split' _ _

/-- The codes of the regular parser. -/
abbrev regularCodes : List Nat := [502, 503, 504, 505, 506, 509]
/-- The codes of the event driven parser. -/
abbrev eventCodes : List Nat := [500, 501, 502, 503, 504, 505, 506, 509]

/-- A set of codes that has all those of the regular parser. -/
structure Has (S : Nat → Prop) : Prop where
  of : ∀ k ∈ regularCodes, S k

theorem eigenvalues' (h : Has S) (p : Params) (b : Bool) (s1 : List Node) (s2 : Option (List Node)) (n : Nat) :
    ExitsIn S (extractEigenvalues p b s1 s2 n) := by
  unfold extractEigenvalues
  cases p.ispin with
  | none => exact ExitsIn.exit (h.of _ (by decide))
  | some i =>
    dsimp only
    cases p.nbands with
    | none => exact ExitsIn.exit (h.of _ (by decide))
    | some nb =>
      dsimp only
      refine ExitsIn.ite (ExitsIn.exit (h.of _ (by decide))) (ExitsIn.bind (idx' _ _) fun e => ?_)
      cases e.text with
      | none => exact ExitsIn.raise _
      | some s =>
        refine ExitsIn.bind (eigenRows' (h.of _ (by decide)) _ _ _) fun d => ?_
        cases s2 with
        | none => exact ExitsIn.ok _
        | some es2 =>
          exact ExitsIn.ite (ExitsIn.exit (h.of _ (by decide))) (ExitsIn.bind (eigenRows' (h.of _ (by decide)) _ _ _) fun d => ExitsIn.ok _)

theorem eigenvelocities' (h : Has S) (p : Params) (b : Bool) (s1 : List Node) (s2 : Option (List Node)) (n : Nat) :
    ExitsIn S (extractEigenvelocities p b s1 s2 n) := by
  unfold extractEigenvelocities
  cases p.ispin with
  | none => exact ExitsIn.exit (h.of _ (by decide))
  | some i =>
    dsimp only
    cases p.nbands with
    | none => exact ExitsIn.exit (h.of _ (by decide))
    | some nb =>
      dsimp only
      refine ExitsIn.ite (ExitsIn.exit (h.of _ (by decide))) (ExitsIn.bind (convert2D' _ _) fun r => ExitsIn.bind (split' _ _) fun d => ?_)
      cases s2 with
      | none => exact ExitsIn.ok _
      | some es2 =>
        exact ExitsIn.ite (ExitsIn.exit (h.of _ (by decide)))
          (ExitsIn.bind (convert2D' _ _) fun r => ExitsIn.bind (split' _ _) fun d => ExitsIn.ok _)

theorem projRows' (a b : Nat) (es : List Node) : ExitsIn S (projRows a b es) :=
  ExitsIn.bind (convert2D' _ _) fun _ => ExitsIn.bind (split' _ _) fun _ =>
    ExitsIn.bind (ExitsIn.mapM' (fun _ => split' _ _) _) fun _ => ExitsIn.ok _

theorem projectors' (h : Has S) (p : Params) (b : Bool) (sp : Option (List Nat)) (ks : Option Table) (s1 : List Node) (s2 : Option (List Node)) :
    ExitsIn S (extractProjectors p b sp ks s1 s2) := by
  unfold extractProjectors
  cases ks with
  | none => exact ExitsIn.exit (h.of _ (by decide))
  | some ks =>
    dsimp only
    cases p.ispin with
    | none => exact ExitsIn.exit (h.of _ (by decide))
    | some i =>
      dsimp only
      cases p.nbands with
      | none => exact ExitsIn.exit (h.of _ (by decide))
      | some nb =>
        dsimp only
        cases sp with
        | none => exact ExitsIn.exit (h.of _ (by decide))
        | some sp =>
          refine ExitsIn.ite (ExitsIn.exit (h.of _ (by decide))) (ExitsIn.bind (projRows' _ _ _) fun d => ?_)
          cases s2 with
          | none => exact ExitsIn.ok _
          | some es2 => exact ExitsIn.ite (ExitsIn.exit (h.of _ (by decide))) (ExitsIn.bind (projRows' _ _ _) fun d => ExitsIn.ok _)

theorem partialDos' (n : Nat) (es : List Node) : ExitsIn S (Vasprun.partialDos n es) :=
  ExitsIn.bind (convert2D' _ _) fun _ => split' _ _

theorem opt' {α : Type} {f : List Node → Res α} (hf : ∀ e, ExitsIn S (f e)) (es : List Node) : ExitsIn S (opt f es) := by
  unfold opt
  cases es with
  | nil => exact ExitsIn.ok _
  | cons e es => exact ExitsIn.bind (hf _) fun _ => ExitsIn.ok _

theorem fetch' {α : Type} {f : Node → Res (Option α)} (hf : ∀ e, ExitsIn S (f e)) (es : List Node) : ExitsIn S (fetch f es) := by
  unfold fetch
  cases es with
  | nil => exact ExitsIn.ok _
  | cons e es => exact hf _

theorem further' (m : Nat) (es : List Node) (l : List Nat) (d : Steps) : ExitsIn S (furtherSteps m es l d) := by
  induction l generalizing d with
  | nil => exact ExitsIn.ok _
  | cons i l ih => exact ExitsIn.bind (convert2D' _ _) fun x => ih _

theorem upfs' (root : Node) (sp : Option (List Nat)) (b : Bool) : ExitsIn S (fetchUpfs root sp b) := by
  have i1 : ∀ es n, ExitsIn S (convert2D es n) := convert2D'
  have i2 : ∀ (f : List Node → List Node) (es : List Node), ExitsIn S (opt (fun e => convert2D (f e) 3) es) := fun f es => opt' (fun e => i1 _ _) es
  have i3 : ∀ a b, ExitsIn S (initialFinal a b) := fun a b => ExitsIn.bind (i2 id _) fun _ => ExitsIn.bind (i2 id _) fun _ => ExitsIn.ok _
  have i4 : ∀ m es, ExitsIn S (firstLast m es) := fun m es => ExitsIn.bind (i2 (fun e => e.take m) _) fun _ => ExitsIn.bind (i2 (fun e => lastRows m e) _) fun _ => ExitsIn.ok _
  have i5 : ∀ m n b es, ExitsIn S (allSteps m n b es) := by
    intro m n b es
    refine ExitsIn.bind (i2 (fun e => e.take m) _) fun _ => ExitsIn.bind (ExitsIn.ite (ExitsIn.bind (i1 _ _) fun _ => ExitsIn.ok _) (ExitsIn.ok _)) fun _ => ?_
    exact ExitsIn.bind (ExitsIn.ite (further' _ _ _ _) (ExitsIn.ok _)) fun _ => ExitsIn.ok _
  unfold fetchUpfs
  cases sp with
  | none => exact ExitsIn.ok _
  | some sp =>
    refine ExitsIn.ite ?_ (ExitsIn.ite (ExitsIn.ok _) ?_)
    · exact ExitsIn.bind (i3 _ _) fun _ => ExitsIn.bind (i3 _ _) fun _ => ExitsIn.bind (i4 _ _) fun _ => ExitsIn.bind (i4 _ _) fun _ => ExitsIn.ok _
    · exact ExitsIn.bind (i5 _ _ _ _) fun _ => ExitsIn.bind (i5 _ _ _ _) fun _ => ExitsIn.bind (i5 _ _ _ _) fun _ => ExitsIn.bind (i5 _ _ _ _) fun _ => ExitsIn.ok _

theorem energy' (h : S 509) (step : Node) (e : EType) : ExitsIn S (fetchEnergy step e) := by
  unfold fetchEnergy
  generalize findAny step (t c!"scstep") [t c!"energy", tn c!"i" e.key] = sc
  cases sc with
  | nil => exact ExitsIn.ok _
  | cons x sc =>
    refine ExitsIn.bind (convert1D' h _) fun xs => ?_
    generalize findRel step [t c!"energy", tn c!"i" e.key] = f
    cases f with
    | nil => exact ExitsIn.ok _
    | cons x f => exact ExitsIn.bind (convertF' h _) fun _ => ExitsIn.ok _

theorem stepEnergies' (h : S 509) (step : Node) (es : List EType) : ExitsIn S (fetchStepEnergies step es) := by
  induction es with
  | nil => exact ExitsIn.ok _
  | cons e es ih =>
    unfold fetchStepEnergies
    refine ExitsIn.bind (energy' h step e) fun r => ?_
    rcases r with _ | ⟨xs, y⟩
    · exact ExitsIn.ok _
    · refine ExitsIn.bind ih fun r => ?_
      cases r <;> exact ExitsIn.ok _

theorem allEnergies' (h : S 509) (cs : List Node) (i : Nat) : ExitsIn S (fetchAllEnergies i cs) := by
  induction cs generalizing i with
  | nil => exact ExitsIn.ok _
  | cons e es ih =>
    unfold fetchAllEnergies
    refine ExitsIn.bind (stepEnergies' h _ _) fun r => ?_
    rcases r with _ | r
    · exact ExitsIn.ok _
    · refine ExitsIn.bind (ih _) fun r => ?_
      cases r <;> exact ExitsIn.ok _

theorem partialOf' (n : Nat) (es : Option (List Node)) : ExitsIn S (partialOf n es) := by
  unfold partialOf
  have i := partialDos' (S := S) n
  exits

theorem oneDos' (h : S 509) (root : Node) (d : Xml.Step) (na : Option Nat) : ExitsIn S (fetchOneDos root d na) := by
  have i1 : ∀ es n, ExitsIn S (convert2D es n) := convert2D'
  have i2 : ∀ n es, ExitsIn S (partialOf n es) := partialOf'
  have i3 : ∀ a b c d e n, ExitsIn S (extractDos a b c d e n) := by
    intro a b c d e n; unfold extractDos; exits
  unfold fetchOneDos
  refine ExitsIn.bind (fetch' (convertF' h) _) fun f => ?_
  dsimp only
  generalize findAny root (t c!"calculation") [d, t c!"total", t c!"array", t c!"set", tc c!"set" c!"spin 1", t c!"r"] = l
  cases l with
  | nil => exact ExitsIn.ok _
  | cons x l => cases na with
    | none => exact ExitsIn.ok _
    | some n => exact ExitsIn.bind (i3 _ _ _ _ _ _) fun _ => ExitsIn.ok _

theorem fetchSpecies' (h : S 506) (root : Node) : ExitsIn S (fetchSpecies root) := by
  unfold fetchSpecies
  generalize findAny root _ _ = l
  cases l with
  | nil => exact ExitsIn.ok _
  | cons x l => exact ExitsIn.bind (species' h _) fun _ => ExitsIn.ok _

theorem fetchDivisions' (root : Node) : ExitsIn S (fetchDivisions root) := by
  unfold fetchDivisions
  generalize findRel root _ = l
  cases l with
  | nil => exact ExitsIn.ok _
  | cons x l => exact ExitsIn.bind (arrayI' _) fun _ => ExitsIn.ok _

theorem fetchEigenvalues' (h : Has S) (root : Node) (p : Params) (b : Bool) (ks : Option Table) : ExitsIn S (fetchEigenvalues root p b ks) := by
  unfold fetchEigenvalues
  dsimp only
  generalize findAny root _ _ = l
  cases l with
  | nil => exact ExitsIn.ok _
  | cons x l => cases ks with
    | none => exact ExitsIn.raise _
    | some ks => exact ExitsIn.bind (eigenvalues' h _ _ _ _ _) fun _ => ExitsIn.ok _

theorem two' (n : Nat) (es : List Node) : ExitsIn S (opt (fun e => convert2D e n) es) := opt' (fun _ => convert2D' _ _) es

theorem fetchSpecific' (h : Has S) (root : Node) (p : Params) (b : Bool) : ExitsIn S (fetchEigenvaluesSpecific root p b) := by
  unfold fetchEigenvaluesSpecific
  dsimp only
  generalize findAny root _ (t c!"eigenvalues" :: t c!"eigenvalues" :: _) = l
  cases l with
  | nil => exact ExitsIn.ok _
  | cons x l =>
    refine ExitsIn.bind (two' _ _) fun ks => ExitsIn.bind (opt' (convert1D' (h.of _ (by decide))) _) fun ws => ?_
    cases ks with
    | none => exact ExitsIn.raise _
    | some ks => exact ExitsIn.bind (eigenvalues' h _ _ _ _ _) fun _ => ExitsIn.ok _

theorem fetchVelocities' (h : Has S) (root : Node) (p : Params) (b : Bool) : ExitsIn S (fetchEigenvelocities root p b) := by
  unfold fetchEigenvelocities
  dsimp only
  generalize findAny root _ (t c!"eigenvelocities" :: t c!"eigenvalues" :: _) = l
  cases l with
  | nil => exact ExitsIn.ok _
  | cons x l =>
    refine ExitsIn.bind (two' _ _) fun ks => ExitsIn.bind (opt' (convert1D' (h.of _ (by decide))) _) fun ws => ?_
    cases ks with
    | none => exact ExitsIn.raise _
    | some ks => exact ExitsIn.bind (eigenvelocities' h _ _ _ _ _) fun _ => ExitsIn.ok _

theorem fetchDos' (h : S 509) (root : Node) (sp : Option (List Nat)) : ExitsIn S (fetchDos root sp) := by
  unfold fetchDos
  refine ExitsIn.bind (oneDos' h _ _ _) fun d => ?_
  cases d with
  | none => exact ExitsIn.ok _
  | some d => exact ExitsIn.bind (oneDos' h _ _ _) fun _ => ExitsIn.ok _

theorem fetchTotens' (h : S 509) (root : Node) : ExitsIn S (fetchTotens root) := by
  unfold fetchTotens
  generalize findAny root _ _ = l
  cases l with
  | nil => exact ExitsIn.ok _
  | cons x l => exact allEnergies' h _ _

theorem fetchProjectors' (h : Has S) (root : Node) (p : Params) (b : Bool) (sp : Option (List Nat)) (ks : Option Table) :
    ExitsIn S (fetchProjectors root p b sp ks) := by
  unfold fetchProjectors
  dsimp only
  generalize findAny root _ _ = l
  cases l with
  | nil => exact ExitsIn.ok _
  | cons x l => exact ExitsIn.bind (projectors' h _ _ _ _ _ _) fun _ => ExitsIn.ok _

theorem fetchHessian' (root : Node) (sp : Option (List Nat)) : ExitsIn S (fetchHessian root sp) := by
  unfold fetchHessian
  generalize findAny root _ _ = l
  cases l with
  | nil => exact ExitsIn.ok _
  | cons x l => cases sp with
    | none => exact ExitsIn.ok _
    | some sp => exact ExitsIn.bind (convert2D' _ _) fun _ => ExitsIn.ok _

theorem fetchDynmat' (root : Node) (sp : Option (List Nat)) : ExitsIn S (fetchDynmat root sp) := by
  unfold fetchDynmat
  generalize findAny root _ [t c!"dynmat", tn c!"v" c!"eigenvalues"] = l
  cases l with
  | nil => exact ExitsIn.ok _
  | cons x l => cases sp with
    | none => exact ExitsIn.ok _
    | some sp =>
      refine ExitsIn.bind (fromText' _) fun ev => ?_
      generalize findAny root _ _ = l
      cases l with
      | nil => exact ExitsIn.ok _
      | cons x l => exact ExitsIn.bind (convert2D' _ _) fun _ => ExitsIn.ok _

theorem fetchBorn' (root : Node) (sp : Option (List Nat)) : ExitsIn S (fetchBorn root sp) := by
  unfold fetchBorn
  generalize findAny root _ _ = l
  cases l with
  | nil => exact ExitsIn.ok _
  | cons x l => cases sp with
    | none => exact ExitsIn.ok _
    | some sp => exact ExitsIn.bind (convert2D' _ _) fun _ => ExitsIn.bind (split' _ _) fun _ => ExitsIn.ok _

theorem regular' (h : Has S) (root : Node) (a b : Bool) : ExitsIn S (parsew root a b) := by
  have h9 : S 509 := h.of _ (by decide)
  have iF : ∀ es, ExitsIn S (fetch convertF es) := fetch' (convertF' h9)
  have iI : ∀ es, ExitsIn S (fetch convertI es) := fetch' (convertI' h9)
  refine ExitsIn.bind ?_ fun p => ExitsIn.bind (fetchSpecies' (h.of _ (by decide)) _) fun sp => ExitsIn.bind (upfs' _ _ _) fun u =>
    ExitsIn.bind (two' _ _) fun ks => ExitsIn.bind (opt' (convert1D' h9) _) fun ws => ExitsIn.bind (fetchDivisions' _) fun kdiv =>
    ExitsIn.bind (fetchEigenvalues' h _ _ _ _) fun eig => ExitsIn.bind (fetchSpecific' h _ _ _) fun spec =>
    ExitsIn.bind (fetchVelocities' h _ _ _) fun vel => ExitsIn.bind (fetchDos' h9 _ _) fun dos => ExitsIn.bind (fetchTotens' h9 _) fun tot =>
    ExitsIn.bind ?_ fun diel => ExitsIn.bind (fetchProjectors' h _ _ _ _ _) fun proj => ExitsIn.bind (fetchHessian' _ _) fun hess =>
    ExitsIn.bind (fetchDynmat' _ _) fun dyn => ExitsIn.bind (fetchBorn' _ _) fun born => ExitsIn.ok _
  · exact ExitsIn.bind (iF _) fun _ => ExitsIn.bind (iF _) fun _ => ExitsIn.bind (iI _) fun _ => ExitsIn.bind (iI _) fun _ =>
      ExitsIn.bind (iI _) fun _ => ExitsIn.bind (iF _) fun _ => ExitsIn.bind (fetch' (fun _ => ExitsIn.ok _) _) fun _ => ExitsIn.bind (iI _) fun _ =>
      ExitsIn.bind (iI _) fun _ => ExitsIn.ok _
  · exact ExitsIn.bind (two' _ _) fun _ => ExitsIn.bind (two' _ _) fun _ => ExitsIn.bind (two' _ _) fun _ => ExitsIn.bind (two' _ _) fun _ =>
      ExitsIn.ok _

unseal findAny findRel

/-- An element. -/
def el (tag : Str) (attrs : Dict Str Str) (text : Option Str) (cs : List Node) : Node := .node tag attrs text cs
/-- Elements without attributes and text, one in the other. -/
def nest (tags : List Str) (cs : List Node) : List Node := tags.foldr (fun tag cs => [el tag [] none cs]) cs
/-- A parameter of the group `electronic`. -/
def electronic (cs : List Node) : Node := el c!"parameters" [] none [el c!"separator" [(c!"name", c!"electronic")] none cs]
/-- The parameter `ISPIN`. -/
def ispin (v : Str) : Node := el c!"separator" [(c!"name", c!"electronic spin")] none [el c!"i" [(c!"name", c!"ISPIN")] (some v) []]
/-- The parameter `NBANDS`. -/
def nbands (v : Str) : Node := el c!"i" [(c!"name", c!"NBANDS")] (some v) []
/-- One k-point. -/
def onePoint : Node := el c!"kpoints" [] none [el c!"varray" [(c!"name", c!"kpointlist")] none [el c!"v" [] (some c!"0 0 0") []]]
/-- One eigenvalue. -/
def oneValue : Node := el c!"calculation" [] none (nest [c!"eigenvalues", c!"array", c!"set"]
  [el c!"set" [(c!"comment", c!"spin 1")] none (nest [c!"set"] [el c!"r" [] (some c!"1 1") []])])
/-- One row of projections. -/
def oneProjection : Node := el c!"calculation" [] none (nest [c!"projected", c!"array", c!"set"]
  [el c!"set" [(c!"comment", c!"spin1")] none (nest [c!"set", c!"set"] [el c!"r" [] (some c!"0 0 0 0 0 0 0 0 0") []])])
/-- One atom. -/
def atom (v : Str) : Node := el c!"atominfo" [] none [el c!"array" [(c!"name", c!"atoms")] none
  (nest [c!"set", c!"rc"] [el c!"c" [] (some v) [], el c!"c" [] (some c!"1") []])]
/-- The document with these parts. -/
def doc (cs : List Node) : Node := el c!"modeling" [] none cs

/-- C116 for the regular parser of vasprun.xml: whatever stands in the document, exactly these codes. -/
theorem C116_vasprun (extractAll : Bool) : Exits (fun a : Node × Bool => parsew a.1 a.2 extractAll) regularCodes := by
  constructor
  · intro a
    exact (regular' (S := (· ∈ regularCodes)) ⟨fun k hk => hk⟩ a.1 a.2 extractAll).of
  · intro k hk
    simp only [List.mem_cons, List.not_mem_nil, or_false] at hk
    rcases hk with rfl | rfl | rfl | rfl | rfl | rfl
    · exact ⟨(doc [onePoint, oneValue], true), by cases extractAll <;> rfl⟩
    · exact ⟨(doc [electronic [ispin c!"1"], onePoint, oneValue], true), by cases extractAll <;> rfl⟩
    · exact ⟨(doc [oneProjection], true), by cases extractAll <;> rfl⟩
    · exact ⟨(doc [electronic [ispin c!"1", nbands c!"2"], onePoint, oneValue], true), by cases extractAll <;> rfl⟩
    · exact ⟨(doc [atom c!"Qq"], true), by cases extractAll <;> rfl⟩
    · exact ⟨(doc [electronic [nbands c!"****"]], true), by cases extractAll <;> rfl⟩

/-! #### the event driven parser -/

theorem seq' {l : List (St → Res St)} (h : ∀ f ∈ l, ∀ s, ExitsIn S (f s)) (s : St) : ExitsIn S (seq l s) := by
  induction l generalizing s with
  | nil => exact ExitsIn.ok _
  | cons f l ih =>
    exact ExitsIn.bind (h f List.mem_cons_self s) fun s => ih (fun g hg => h g (List.mem_cons_of_mem _ hg)) s

theorem nil' : ∀ f ∈ ([] : List (St → Res St)), ∀ s, ExitsIn S (f s) := fun f h => by cases h
theorem cons' {f : St → Res St} {l : List (St → Res St)} (hf : ∀ s, ExitsIn S (f s)) (hl : ∀ f ∈ l, ∀ s, ExitsIn S (f s)) :
    ∀ g ∈ f :: l, ∀ s, ExitsIn S (g s) := by
  intro g hg
  rcases List.mem_cons.1 hg with rfl | hg
  · exact hf
  · exact hl g hg

theorem when' (b : Bool) {f : St → Res St} (h : ∀ s, ExitsIn S (f s)) (s : St) : ExitsIn S (when b f s) := ExitsIn.ite (h s) (ExitsIn.ok _)

theorem numAtoms' (h : S 501) (s : St) : ExitsIn S (numAtoms s) := by
  unfold numAtoms
  cases s.o.species with
  | none => exact ExitsIn.exit h
  | some sp => exact ExitsIn.ok _

theorem calc' (h : S 509) (e : Event) (s : St) : ExitsIn S (calcStage e s) := by
  refine ExitsIn.ite (ExitsIn.ok _) (ExitsIn.ite ?_ (ExitsIn.ok _))
  refine ExitsIn.bind (convert1D' h _) fun _ => ExitsIn.bind (convert1D' h _) fun _ => ExitsIn.bind (convert1D' h _) fun _ => ?_
  cases s.o.totens.get? s.o.num with
  | none => exact ExitsIn.raise _
  | some m => exact ExitsIn.ok _

theorem atoms' (h : S 506) (e : Event) (s : St) : ExitsIn S (atomsStage e s) :=
  ExitsIn.ite (ExitsIn.ok _) (ExitsIn.ite (ExitsIn.bind (species' h _) fun _ => ExitsIn.ok _) (ExitsIn.ok _))

theorem param' (h : S 509) (e : Event) (s : St) : ExitsIn S (paramStage e s) := by
  refine ExitsIn.ite (ExitsIn.bind ?_ fun _ => ExitsIn.ok _) (ExitsIn.ok _)
  unfold setParam
  refine ExitsIn.ite ?_ (ExitsIn.ok _)
  cases name e.node with
  | none => exact ExitsIn.ok _
  | some v =>
    have f : ∀ g : Option Rat → Params, ExitsIn S (convertF (asSeen e) >>= fun x => .ok (g x)) := fun g => ExitsIn.bind (convertF' h _) fun _ => ExitsIn.ok _
    have i : ∀ g : Option Int → Params, ExitsIn S (convertI (asSeen e) >>= fun x => .ok (g x)) := fun g => ExitsIn.bind (convertI' h _) fun _ => ExitsIn.ok _
    refine ExitsIn.ite (f _) (ExitsIn.ite (i _) (ExitsIn.ite (i _) (ExitsIn.ite (f _) (ExitsIn.ite (i _) (ExitsIn.ite (f _)
      (ExitsIn.ite (ExitsIn.ok _) (ExitsIn.ite ?_ (ExitsIn.ite (i _) (ExitsIn.ok _)))))))))
    refine ExitsIn.bind ?_ fun b => ExitsIn.ite (i _) (ExitsIn.ok _)
    unfold parentIs
    cases e.parent with
    | none => exact ExitsIn.raise _
    | some p => exact ExitsIn.ok _

theorem dosTotal' (s : St) : ExitsIn S (dosTotal s) :=
  ExitsIn.bind (convert2D' _ _) fun _ => ExitsIn.bind (ExitsIn.ite (ExitsIn.ok _) (ExitsIn.bind (convert2D' _ _) fun _ => ExitsIn.ok _)) fun _ => ExitsIn.ok _

theorem dosPartial' (h : S 501) (s : St) : ExitsIn S (dosPartial s) :=
  ExitsIn.bind (numAtoms' h s) fun _ => ExitsIn.bind (partialDos' _ _) fun _ =>
    ExitsIn.bind (ExitsIn.ite (ExitsIn.ok _) (ExitsIn.bind (partialDos' _ _) fun _ => ExitsIn.ok _)) fun _ => ExitsIn.ok _

theorem dosEnd' (h : S 500) (h9 : S 509) (b : Bool) (s : St) : ExitsIn S (dosEnd b s) := by
  refine ExitsIn.bind ?_ fun f => ExitsIn.bind (ExitsIn.ite (ExitsIn.ok _) ?_) fun d => ExitsIn.ok _
  · rcases s.c.data6 with _ | ⟨a, _ | ⟨b, r⟩⟩
    · exact ExitsIn.ok _
    · exact convertF' h9 _
    · exact ExitsIn.exit h
  · cases s.c.part1.energy with
    | none => exact ExitsIn.raise _
    | some e => exact ExitsIn.ok _

theorem dos' (h0 : S 500) (h1 : S 501) (h9 : S 509) (e : Event) (s : St) : ExitsIn S (dosStage e s) :=
  seq' (cons' (when' _ fun _ => ExitsIn.ok _) (cons' (fun s => when' _ dosTotal' s) (cons' (fun s => when' _ (dosPartial' h1) s)
    (cons' (fun s => when' _ (dosEnd' h0 h9 _) s) nil')))) s

theorem dosS' (h0 : S 500) (h1 : S 501) (h9 : S 509) (e : Event) (s : St) : ExitsIn S (dosSpecificStage e s) :=
  seq' (cons' (when' _ fun _ => ExitsIn.ok _) (cons' (fun s => when' _ dosTotal' s) (cons' (fun s => when' _ (dosPartial' h1) s)
    (cons' (fun s => when' _ (dosEnd' h0 h9 _) s) nil')))) s

theorem varray' (e : Event) (s : St) : ExitsIn S (varrayStage e s) := by
  refine ExitsIn.ite ?_ (ExitsIn.ok _)
  cases name e.node with
  | none => exact ExitsIn.raise _
  | some v =>
    exact ExitsIn.ite (ExitsIn.ite (ExitsIn.ok _) (ExitsIn.bind (convert2D' _ _) fun _ => ExitsIn.ok _))
      (ExitsIn.ite (ExitsIn.ite (ExitsIn.ok _) (ExitsIn.bind (convert2D' _ _) fun _ => ExitsIn.ok _)) (ExitsIn.ok _))

theorem lenOf' (k : Option Table) : ExitsIn S (VasprunEvent.lenOf k) := by
  cases k with
  | none => exact ExitsIn.raise _
  | some k => exact ExitsIn.ok _

theorem eig' (h : Has S) (b : Bool) (e : Event) (s : St) : ExitsIn S (eigStage b e s) := by
  refine seq' (cons' (fun s => when' _ (fun _ => ExitsIn.ok _) s) (cons' (fun s => when' _ (fun s => ?_) s) (cons' (when' _ fun _ => ExitsIn.ok _)
    (cons' (fun s => when' _ (fun s => ?_) s) (cons' (when' _ fun _ => ExitsIn.ok _) (cons' (when' _ fun s => ?_) nil')))))) s
  · exact ExitsIn.bind (lenOf' _) fun _ => ExitsIn.bind (eigenvalues' h _ _ _ _ _) fun _ => ExitsIn.ok _
  · exact ExitsIn.bind (lenOf' _) fun _ => ExitsIn.bind (eigenvalues' h _ _ _ _ _) fun _ => ExitsIn.ok _
  · exact ExitsIn.bind (lenOf' _) fun _ => ExitsIn.bind (eigenvelocities' h _ _ _ _ _) fun _ => ExitsIn.ok _

theorem response' (e : Event) (s : St) : ExitsIn S (responseStage e s) := by
  refine seq' (cons' (when' _ fun _ => ExitsIn.ok _) (cons' (when' _ fun s => ?_) (cons' (when' _ fun _ => ExitsIn.ok _)
    (cons' (when' _ fun _ => ExitsIn.ok _) nil')))) s
  refine ExitsIn.bind (convert2D' _ _) fun _ => ExitsIn.bind (split' _ _) fun d => ?_
  rcases d with _ | ⟨a, _ | ⟨b, _ | ⟨c, d⟩⟩⟩
  · exact ExitsIn.raise _
  · exact ExitsIn.raise _
  · exact ExitsIn.ok _
  · exact ExitsIn.raise _

theorem born' (h : S 501) (e : Event) (s : St) : ExitsIn S (bornStage e s) :=
  ExitsIn.ite (ExitsIn.ok _) (ExitsIn.ite (ExitsIn.bind (numAtoms' h _) fun _ => ExitsIn.bind (convert2D' _ _) fun _ =>
    ExitsIn.bind (split' _ _) fun _ => ExitsIn.ok _) (ExitsIn.ok _))

theorem lattice' (e : Event) (s : St) : ExitsIn S (latticeStage e s) :=
  when' _ (seq' (cons' (when' _ fun _ => ExitsIn.ok _) (cons' (when' _ fun _ => ExitsIn.bind (convert2D' _ _) fun _ => ExitsIn.ok _)
    (cons' (when' _ fun _ => ExitsIn.ok _) (cons' (when' _ fun _ => ExitsIn.bind (convert2D' _ _) fun _ => ExitsIn.ok _)
    (cons' (fun _ => ExitsIn.ok _) (cons' (fun _ => ExitsIn.ok _) nil'))))))) s

theorem final' (e : Event) (s : St) : ExitsIn S (finalStage e s) := by
  refine ExitsIn.ite ?_ (ExitsIn.ok _)
  cases name e.node with
  | none => exact ExitsIn.raise _
  | some v =>
    dsimp only
    cases typeOf v with
    | none => exact ExitsIn.ok _
    | some ty =>
      dsimp only
      cases e.seen with
      | none => exact ExitsIn.raise _
      | some x =>
        refine ExitsIn.bind (toFloat' _) fun y => ?_
        unfold storeFinal
        cases s.o.totens.get? s.o.num with
        | none => exact ExitsIn.raise _
        | some m => exact ExitsIn.ok _

theorem special' (h : S 509) (e : Event) (s : St) : ExitsIn S (specialStage e s) :=
  seq' (cons' (when' _ fun _ => ExitsIn.ok _) (cons' (when' _ fun _ => ExitsIn.bind (convert2D' _ _) fun _ => ExitsIn.ok _)
    (cons' (when' _ fun _ => ExitsIn.ok _) (cons' (when' _ fun _ => ExitsIn.bind (convert1D' h _) fun _ => ExitsIn.ok _) nil')))) s

theorem eigS' (h : S 509) (e : Event) (s : St) : ExitsIn S (eigSRows e s) :=
  when' _ (seq' (cons' (special' h e) (cons' (fun _ => ExitsIn.ok _) (cons' (fun _ => ExitsIn.ok _) (cons' (fun _ => ExitsIn.ok _) nil'))))) s

theorem vel' (h : S 509) (e : Event) (s : St) : ExitsIn S (velRows e s) :=
  when' _ (seq' (cons' (special' h e) (cons' (fun _ => ExitsIn.ok _) (cons' (fun _ => ExitsIn.ok _) (cons' (fun _ => ExitsIn.ok _) nil'))))) s

theorem proj' (h : Has S) (b : Bool) (e : Event) (s : St) : ExitsIn S (projStage b e s) :=
  when' _ (seq' (cons' (when' _ fun _ => ExitsIn.ok _)
    (cons' (fun s => when' _ (fun _ => ExitsIn.bind (projectors' h _ _ _ _ _ _) fun _ => ExitsIn.ok _) s) (cons' (fun _ => ExitsIn.ok _) nil')))) s

theorem dynmat' (h : S 501) (e : Event) (s : St) : ExitsIn S (dynmatStage e s) :=
  when' _ (seq' (cons' (when' _ fun _ => ExitsIn.ok _)
    (cons' (when' _ fun s => ExitsIn.bind (numAtoms' h s) fun _ => ExitsIn.bind (convert2D' _ _) fun _ => ExitsIn.ok _)
    (cons' (when' _ fun _ => ExitsIn.ok _)
    (cons' (when' _ fun s => ExitsIn.bind (numAtoms' h s) fun _ => ExitsIn.bind (convert2D' _ _) fun _ => ExitsIn.ok _)
    (cons' (fun _ => ExitsIn.ok _) (cons' (fun _ => ExitsIn.ok _)
    (cons' (when' _ fun s => ExitsIn.bind (fromText' _) fun _ => ExitsIn.ok _) nil')))))))) s

theorem kpoints' (h : S 509) (e : Event) (s : St) : ExitsIn S (kpointsStage e s) :=
  when' _ (seq' (cons' (when' _ fun _ => ExitsIn.bind (arrayI' _) fun _ => ExitsIn.ok _) (cons' (when' _ fun _ => ExitsIn.ok _)
    (cons' (when' _ fun _ => ExitsIn.bind (convert2D' _ _) fun _ => ExitsIn.ok _) (cons' (when' _ fun _ => ExitsIn.ok _)
    (cons' (when' _ fun _ => ExitsIn.bind (convert1D' h _) fun _ => ExitsIn.ok _) (cons' (fun _ => ExitsIn.ok _) (cons' (fun _ => ExitsIn.ok _)
    nil')))))))) s

theorem event' (h0 : S 500) (h1 : S 501) (h : Has S) (b : Bool) (e : Event) (s : St) : ExitsIn S (VasprunEvent.step b e s) := by
  have h9 : S 509 := h.of _ (by decide)
  have ok : ∀ (f : St → St) s, ExitsIn S (.ok (f s)) := fun f s => ExitsIn.ok _
  refine seq' (cons' (ok _) (cons' (calc' h9 e) (cons' (atoms' (h.of _ (by decide)) e) (cons' (ok _) (cons' (ok _) (cons' (param' h9 e)
    (cons' (fun s => when' _ (seq' ?_) s) (cons' (ok _) (cons' (kpoints' h9 e) (cons' (ok _) (cons' (ok _) nil'))))))))))) s
  refine cons' (dos' h0 h1 h9 e) (cons' (dosS' h0 h1 h9 e) (cons' (ok _) (cons' (varray' e) (cons' (ok _) (cons' (eig' h b e) (cons' (response' e)
    (cons' (born' h1 e) (cons' (fun s => ?_) (cons' (lattice' e) (cons' (ok _) (cons' (final' e) (cons' (ok _) (cons' (eigS' h9 e) (cons' (vel' h9 e)
    (cons' (ok _) (cons' (proj' h b e) (cons' (dynmat' h1 e) (cons' (ok _) nil'))))))))))))))))))
  exact ExitsIn.ite (ExitsIn.ite (ExitsIn.raise _) (ExitsIn.ok _)) (ExitsIn.ok _)

theorem run' (h0 : S 500) (h1 : S 501) (h : Has S) (b : Bool) (es : List Event) (s : St) : ExitsIn S (run b es s) := by
  refine seq' (fun f hf s => ?_) s
  obtain ⟨e, _, rfl⟩ := List.mem_map.1 hf
  exact event' h0 h1 h b e s

/-- C116 for the event driven parser: exactly these codes, whatever the events are; each of them for the events of a document. -/
theorem C116_vasprun_event : Exits (fun a : List Event × Bool => parseEvents a.2 a.1) eventCodes ∧
    Exits (fun a : Node × Bool => parsee a.1 a.2) eventCodes := by
  have only : ∀ a : List Event × Bool, ∀ k, parseEvents a.2 a.1 = .exit k → k ∈ eventCodes := by
    intro a k hk
    refine (ExitsIn.bind (S := (· ∈ eventCodes)) (run' (by decide) (by decide) ⟨?_⟩ a.2 a.1 {}) fun s => ExitsIn.ok _).of k hk
    decide
  have all : ∀ k ∈ eventCodes, ∃ a : Node × Bool, parsee a.1 a.2 = .exit k := by
    intro k hk
    simp only [List.mem_cons, List.not_mem_nil, or_false] at hk
    rcases hk with rfl | rfl | rfl | rfl | rfl | rfl | rfl | rfl
    · exact ⟨(doc (nest [c!"calculation", c!"dos"] [el c!"i" [(c!"name", c!"efermi")] (some c!"1") [], el c!"i" [(c!"name", c!"efermi")] (some c!"2") []]), true), rfl⟩
    · exact ⟨(doc (nest [c!"calculation", c!"dos", c!"partial"] []), true), rfl⟩
    · exact ⟨(doc [onePoint, oneValue], true), rfl⟩
    · exact ⟨(doc [electronic [ispin c!"1"], onePoint, oneValue], true), rfl⟩
    · exact ⟨(doc (nest [c!"calculation", c!"projected", c!"eigenvelocities"] [el c!"eigenvalues" [] none [], el c!"array" [] none []]), true), rfl⟩
    · exact ⟨(doc [electronic [ispin c!"1", nbands c!"2"], onePoint, oneValue], true), rfl⟩
    · exact ⟨(doc [atom c!"Qq"], true), rfl⟩
    · exact ⟨(doc [electronic [nbands c!"****"]], true), rfl⟩
  refine ⟨⟨only, fun k hk => ?_⟩, fun a k hk => only (events none a.1, a.2) k hk, all⟩
  obtain ⟨a, ha⟩ := all k hk
  exact ⟨(events none a.1, a.2), ha⟩

/-- C116 for `Xml(...)`: those codes and 16 and 510, if lxml does not end the process. -/
theorem C116_xml (x : Lxml) (hx : ∀ b t k, x.tree b t ≠ .exit k) (path : Option Path) (handler : Option Handler) (a b event : Bool) (k : Nat)
    (h : VasprunApi.new x path handler a b event = .exit k) : k ∈ [16, 500, 501, 502, 503, 504, 505, 506, 509, 510] := by
  have hs : Has (· ∈ [16, 500, 501, 502, 503, 504, 505, 506, 509, 510]) := ⟨by decide⟩
  suffices h' : ExitsIn (· ∈ [16, 500, 501, 502, 503, 504, 505, 506, 509, 510]) (VasprunApi.new x path handler a b event) from h'.of k h
  refine ExitsIn.bind ?_ fun r => ExitsIn.ite (ExitsIn.bind ⟨fun k hk => absurd hk (hx _ _ k)⟩ fun root => ExitsIn.bind (regular' hs _ _ _) fun _ =>
    ExitsIn.ok _) (ExitsIn.bind (run' (by decide) (by decide) hs _ _ _) fun s => ?_)
  · unfold begin
    cases handler with
    | some hd => cases hd with
      | binary f => exact ExitsIn.ok _
      | text f => exact ExitsIn.ite (ExitsIn.raise _) (ExitsIn.ok _)
    | none => cases path with
      | none => exact ExitsIn.exit (by decide)
      | some p => cases p with
        | empty => exact ExitsIn.exit (by decide)
        | missing => exact ExitsIn.raise _
        | file f => exact ExitsIn.ok _
  · cases (x.stream r.1).2 with
    | none => exact ExitsIn.ok _
    | some e => exact ExitsIn.raise _

/-- C116: without a source `Xml(...)` ends the process with 510, for the path `''` with 16, whatever lxml does. -/
theorem C116_xml_source (x : Lxml) (a b event : Bool) :
    VasprunApi.new x none none a b event = .exit 510 ∧ VasprunApi.new x (some .empty) none a b event = .exit 16 := ⟨rfl, rfl⟩

/-- C116 for the getters of ionic steps and of energies: 507 exactly if there are data and the argument is none of the three words (for
energies only if the types are known). -/
theorem C116_getters (d : Option Steps) (status : Str) (k : Nat) :
    getSteps d status = .exit k ↔ k = 507 ∧ d.isSome ∧ status ∉ [c!"initial", c!"last", c!"all"] := by
  have i1 : ∀ d : Steps, ExitsIn (fun _ => False) (maxKey d) := by
    intro d; unfold maxKey; cases d.keys with
    | nil => exact ExitsIn.raise _
    | cons => exact ExitsIn.ok _
  have i2 : ∀ (d : Steps) n, ExitsIn (fun _ => False) (item d n) := by
    intro d n; unfold item; cases d.get? n with
    | none => exact ExitsIn.raise _
    | some => exact ExitsIn.ok _
  unfold getSteps
  cases d with
  | none => simp
  | some d =>
    by_cases hs : status ∈ [c!"initial", c!"last", c!"all"]
    · have h : checkStatus status = .ok () := by unfold checkStatus; rw [if_pos hs]
      refine ⟨fun hk => ?_, fun hk => absurd hs hk.2.2⟩
      dsimp only at hk
      rw [h] at hk
      exact absurd hk (ExitsIn.never (ExitsIn.ite (ExitsIn.bind (i2 _ _) fun _ => ExitsIn.ok _)
        (ExitsIn.ite (ExitsIn.bind (i1 _) fun _ => ExitsIn.bind (i2 _ _) fun _ => ExitsIn.ok _) (ExitsIn.ok _))) k)
    · have h : checkStatus status = .exit 507 := by unfold checkStatus; rw [if_neg hs]
      dsimp only
      rw [h]
      constructor
      · intro hk; cases hk; exact ⟨rfl, rfl, hs⟩
      · rintro ⟨rfl, _⟩; rfl

/-- C116 for `get_energies`. -/
theorem C116_energies (totens : Option (Dict Nat Energies)) (status : Str) (etype : Option (List Str)) (nosc : Bool) (k : Nat) :
    getEnergies totens status etype nosc = .exit k ↔ k = 507 ∧ totens.isSome ∧ status ∉ [c!"initial", c!"last", c!"all"] ∧
      ∀ e ∈ etype.getD [c!"energy_extrapolated"], e ∈ [c!"energy_extrapolated", c!"energy_free", c!"energy_no_entropy"] := by
  have i0 : ∀ e, ExitsIn (fun _ => False) (eTypeOf e) := by intro e; unfold eTypeOf; exits
  have e1 : ∀ e, (∃ x, eTypeOf e = .ok x) ↔ e ∈ [c!"energy_extrapolated", c!"energy_free", c!"energy_no_entropy"] := by
    intro e
    unfold eTypeOf
    split
    · subst e; simp
    · split
      · subst e; simp
      · split
        · subst e; simp
        · simp_all
  have i1 : ∀ d : Dict Nat Energies, ExitsIn (fun _ => False) (maxKey d) := by
    intro d; unfold maxKey; cases d.keys with
    | nil => exact ExitsIn.raise _
    | cons => exact ExitsIn.ok _
  have i2 : ∀ (d : Dict Nat Energies) n, ExitsIn (fun _ => False) (item d n) := by
    intro d n; unfold item; cases d.get? n with
    | none => exact ExitsIn.raise _
    | some => exact ExitsIn.ok _
  have i3 : ∀ e b c s, ExitsIn (fun _ => False) (appendStep e b c s) := by
    intro e b c s; unfold appendStep
    refine ExitsIn.bind ?_ fun f => ExitsIn.bind ?_ fun xs => ExitsIn.ite ?_ (ExitsIn.ok _)
    · unfold item; cases s.final.get? e with
      | none => exact ExitsIn.raise _
      | some => exact ExitsIn.ok _
    · unfold item; cases s.sc.get? e with
      | none => exact ExitsIn.raise _
      | some => exact ExitsIn.ok _
    · cases xs.getLast? with
      | none => exact ExitsIn.raise _
      | some => exact ExitsIn.ok _
  have i4 : ∀ d s b e, ExitsIn (fun _ => False) (energyColumn d s b e) := fun d s b e =>
    ExitsIn.ite (ExitsIn.bind (i2 _ _) fun _ => i3 _ _ _ _) (ExitsIn.ite (ExitsIn.bind (i1 _) fun _ => ExitsIn.bind (i2 _ _) fun _ => i3 _ _ _ _)
      (ExitsIn.ite (foldl_exits (fun _ _ => i3 _ _ _ _) _ _) (ExitsIn.ok _)))
  have i5 : ∀ d s b es a o, ExitsIn (fun _ => False) (energyTable d s b es a o) := by
    intro d s b es
    induction es with
    | nil => intro a o; cases o with
      | none => exact ExitsIn.raise _
      | some => exact ExitsIn.ok _
    | cons e es ih => intro a o; exact ExitsIn.bind (i4 _ _ _ _) fun _ => ih _ _
  unfold getEnergies
  have im : ExitsIn (fun _ => False) (Res.mapM' eTypeOf (etype.getD [c!"energy_extrapolated"])) := ExitsIn.mapM' i0 _
  have em : (∃ es, Res.mapM' eTypeOf (etype.getD [c!"energy_extrapolated"]) = .ok es) ↔
      ∀ e ∈ etype.getD [c!"energy_extrapolated"], e ∈ [c!"energy_extrapolated", c!"energy_free", c!"energy_no_entropy"] := by
    generalize etype.getD [c!"energy_extrapolated"] = l
    induction l with
    | nil => simp [Res.mapM']
    | cons a l ih =>
      rw [List.forall_mem_cons, ← e1 a, ← ih]
      cases h1 : eTypeOf a with
      | ok x => cases h2 : Res.mapM' eTypeOf l <;> simp [Res.mapM', h1, h2]
      | exit k => simp [Res.mapM', h1]
      | raise e => simp [Res.mapM', h1]
  cases hm : Res.mapM' eTypeOf (etype.getD [c!"energy_extrapolated"]) with
  | exit j => exact absurd hm (ExitsIn.never im j)
  | raise e =>
    rw [hm] at em
    constructor
    · intro h; cases h
    · intro h
      obtain ⟨es, h⟩ := em.2 h.2.2.2
      cases h
  | ok es =>
    rw [hm] at em
    have ht := em.1 ⟨es, rfl⟩
    rw [Res.ok_bind]
    cases totens with
    | none => simp
    | some d =>
      by_cases hs : status ∈ [c!"initial", c!"last", c!"all"]
      · have h : checkStatus status = .ok () := by unfold checkStatus; rw [if_pos hs]
        refine ⟨fun hk => ?_, fun hk => absurd hs hk.2.2.1⟩
        dsimp only at hk
        rw [h] at hk
        exact absurd hk (ExitsIn.never (ExitsIn.bind (i5 _ _ _ _ _ _) fun _ => ExitsIn.ok _) k)
      · have h : checkStatus status = .exit 507 := by unfold checkStatus; rw [if_neg hs]
        dsimp only
        rw [h]
        constructor
        · intro hk; cases hk; exact ⟨rfl, rfl, hs, ht⟩
        · rintro ⟨rfl, _⟩; rfl

end Vasprun

end Verif.ExitCodes
