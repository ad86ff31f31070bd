import Verif.Model.DoscarFull
import Mathlib.Data.List.Basic
/-! Two models of the same code, the second one describing more inputs. -/
set_option autoImplicit false
namespace Verif
open Verif.Kpoints (idx toFloat)

/-- Where the first outcome is one the first model describes, the second is the same, with the value translated by `f`. -/
def Agree {α β : Type} (f : α → β) (r : Res α) (s : Res β) : Prop :=
  match r with
  | .ok a => s = .ok (f a)
  | .exit c => s = .exit c
  | .raise e => e = .outOfModel ∨ s = .raise e

namespace Agree
variable {α β γ δ : Type}

theorem ok {f : α → β} (a : α) : Agree f (.ok a) (.ok (f a)) := rfl
theorem raise {f : α → β} (e : Exc) : Agree f (.raise e) (.raise e) := .inr rfl
theorem exit {f : α → β} (c : Nat) : Agree f (.exit c) (.exit c) := rfl
theorem out {f : α → β} (s : Res β) : Agree f (.raise .outOfModel) s := .inl rfl
theorem refl (r : Res α) : Agree id r r := by cases r <;> first | rfl | exact .inr rfl

theorem bind {f : α → β} {g : γ → δ} {r : Res α} {s : Res β} {k : α → Res γ} {l : β → Res δ} (h : Agree f r s)
    (hk : ∀ a, r = .ok a → Agree g (k a) (l (f a))) : Agree g (r >>= k) (s >>= l) := by
  cases r with
  | ok a => cases (show s = _ from h); exact hk a rfl
  | exit c => cases (show s = _ from h); exact rfl
  | raise e =>
    rcases h with h | h
    · exact .inl h
    · cases h; exact .inr rfl

/-- The same first step. -/
theorem same {g : γ → δ} {r : Res α} {k : α → Res γ} {l : α → Res δ} (hk : ∀ a, r = .ok a → Agree g (k a) (l a)) : Agree g (r >>= k) (r >>= l) := by
  cases r with
  | ok a => exact hk a rfl
  | exit c => exact rfl
  | raise e => exact .inr rfl

theorem of_ok {f : α → β} {r : Res α} {s : Res β} (h : Agree f r s) {a : α} (hr : r = .ok a) : s = .ok (f a) := by
  rw [hr] at h; exact h

theorem mapM' {ι : Type} {f : α → β} {g : ι → Res α} {g' : ι → Res β} (h : ∀ i, Agree f (g i) (g' i)) (l : List ι) :
    Agree (List.map f) (Res.mapM' g l) (Res.mapM' g' l) := by
  induction l with
  | nil => exact rfl
  | cons i is ih =>
    have e : ∀ {κ : Type} (g : ι → Res κ), Res.mapM' g (i :: is) = g i >>= fun a => Res.mapM' g is >>= fun t => .ok (a :: t) := by
      intro κ g
      rw [Res.mapM']
      cases g i <;> simp
      cases Res.mapM' g is <;> rfl
    rw [e, e]
    exact bind (h i) fun a _ => bind ih fun t _ => rfl

theorem foldlM' {ι : Type} {f : α → β} {g : α → ι → Res α} {g' : β → ι → Res β} (h : ∀ a i, Agree f (g a i) (g' (f a) i)) (l : List ι) (a : α) :
    Agree f (Res.foldlM' g a l) (Res.foldlM' g' (f a) l) := by
  induction l generalizing a with
  | nil => exact rfl
  | cons i is ih =>
    show Agree _ (g a i >>= fun a => Res.foldlM' g a is) (g' (f a) i >>= fun a => Res.foldlM' g' a is)
    exact bind (h a i) fun b _ => ih b

end Agree

theorem toNum_agree (w : Str) : Agree Num.fin (toFloat w) (toNum w) := by
  unfold toFloat toNum
  cases pyFloat w with
  | none => exact .inr rfl
  | some x => cases x <;> first | exact rfl | exact .inl rfl

/-- A converted line, translated. -/
def Utils.OneOrMany.map {α β : Type} (f : α → β) : Utils.OneOrMany α → Utils.OneOrMany β
  | .one a => .one (f a)
  | .many l => .many (l.map f)

open Verif.Utils

theorem lineToType_agree {α β : Type} {f : α → β} {g : Str → Res α} {g' : Str → Res β} (h : ∀ i, Agree f (g i) (g' i)) (line : Str) :
    Agree (OneOrMany.map f) (lineToType g line) (lineToType g' line) := by
  have := Agree.mapM' h (words line)
  unfold lineToType
  cases hr : Res.mapM' g (words line) with
  | ok l =>
    rw [this.of_ok hr]
    match l with
    | [] => exact rfl
    | [a] => exact rfl
    | a :: b :: t => exact rfl
  | exit c => rw [hr] at this; rw [show Res.mapM' g' (words line) = _ from this]; exact rfl
  | raise e =>
    rw [hr] at this
    rcases this with h | h
    · exact .inl h
    · rw [h]; exact .inr rfl

theorem unpack_agree {α β : Type} (f : α → β) (n : Nat) (v : OneOrMany α) : Agree (List.map f) (Doscar.unpack n v) (Doscar.unpack n (v.map f)) := by
  cases v with
  | one a => exact .inr rfl
  | many l =>
    show Agree _ (if l.length = n then Res.ok l else .raise .valueError) (if (l.map f).length = n then Res.ok (l.map f) else .raise .valueError)
    rw [List.length_map]
    split
    · exact rfl
    · exact .inr rfl

theorem idx_agree {α β : Type} (f : α → β) (l : List α) (i : Nat) : Agree f (idx l i) (idx (l.map f) i) := by
  unfold idx
  rw [List.getElem?_map]
  cases l[i]? with
  | none => exact .inr rfl
  | some a => exact rfl

end Verif

namespace Verif.DoscarFull
open Verif Verif.Utils
open Verif.Kpoints (idx toInt toFloat)
open Verif.Doscar (getNumSpin getDtypePdos unpack truncInt cartesianOf dtypesDos)

/-- A record of the first model. -/
def liftRecord (r : Doscar.Record) : Record := r.map fun p => (p.1, p.2.map Num.fin)
/-- The data of the first model. -/
def lift (d : Doscar.Data) : Data :=
  ⟨⟨d.metadata.nIons, d.metadata.nAtoms, d.metadata.cartesian, d.metadata.name, .fin d.metadata.emax, .fin d.metadata.emin, d.metadata.nDos,
    .fin d.metadata.efermi, .fin d.metadata.weight⟩, d.dos.map liftRecord, d.pdos.map (List.map liftRecord)⟩

theorem record_lift (s : Nat) (names : List Str) (row : List Rat) : record s names (row.map Num.fin) = liftRecord (Doscar.record s names row) := by
  unfold record Doscar.record liftRecord
  have hc : ∀ a b, cols (row.map Num.fin) a b = (Doscar.cols row a b).map Num.fin := by
    intro a b; unfold cols Doscar.cols; rw [List.map_take, List.map_drop]
  simp only [hc, List.map_cons, List.map_map]
  rfl

theorem asRows_agree (c : Nat) (l : List (OneOrMany Rat)) :
    Agree (List.map (List.map Num.fin)) (Doscar.asRows c l) (asRows c (l.map (OneOrMany.map Num.fin))) := by
  induction l with
  | nil => exact rfl
  | cons a as ih =>
    cases a with
    | one x => exact .inr rfl
    | many r =>
      show Agree _ (if r.length = c then _ else _) (if (r.map Num.fin).length = c then _ else _)
      rw [List.length_map]
      split
      · exact ih.bind fun t _ => rfl
      · exact .inr rfl

theorem lenOf_agree (v : OneOrMany Rat) : Agree id (Doscar.lenOf v) (lenOf (v.map Num.fin)) := by
  cases v with
  | one _ => exact .inr rfl
  | many r => show Res.ok (r.map Num.fin).length = .ok r.length; rw [List.length_map]

theorem idxZ_nat {α : Type} (l : List α) (i : Nat) : idxZ l (i : Int) = idx l i := by
  unfold idxZ Kpoints.pyIndex
  rw [if_pos (by omega), Int.toNat_natCast]
  split
  · rename_i k hk
    split at hk
    · cases hk; rfl
    · cases hk
  · rename_i hk
    split at hk
    · cases hk
    · rename_i hlt
      unfold idx
      rw [List.getElem?_eq_none (by omega)]

theorem slice_nat {α : Type} (l : List α) (a b : Nat) : slice l a b = (l.drop a).take (b - a) := by
  unfold slice bound
  rw [if_neg (by omega), if_neg (by omega), Int.toNat_natCast, Int.toNat_natCast, List.drop_take]
  by_cases ha : a ≤ l.length
  · rw [Nat.min_eq_left ha]
    by_cases hb : b ≤ l.length
    · rw [Nat.min_eq_left hb]
    · rw [Nat.min_eq_right (by omega), List.take_of_length_le (by rw [List.length_drop]; exact Nat.le_refl _), List.take_of_length_le (by rw [List.length_drop]; omega)]
  · rw [List.drop_eq_nil_of_le (by omega), List.drop_eq_nil_of_le (by omega)]; simp

theorem slice_map {α β : Type} (f : α → β) (l : List α) (a b : Int) : slice (l.map f) a b = (slice l a b).map f := by
  unfold slice
  rw [List.length_map, List.map_drop, List.map_take]

theorem totalDos_agree (data : List (OneOrMany Rat)) (n : Int) (hn : 0 < n) :
    Agree (List.map liftRecord) (Doscar.totalDos data n.toNat) (totalDos (data.map (OneOrMany.map Num.fin)) n) := by
  unfold Doscar.totalDos totalDos
  have e1 : n - 1 = ((n.toNat - 1 : Nat) : Int) := by omega
  have e2 : slice data 0 n = data.take n.toNat := by
    have := slice_nat data 0 n.toNat
    rw [show ((n.toNat : Nat) : Int) = n by omega] at this
    exact this
  rw [e1, idxZ_nat, slice_map, e2]
  refine (idx_agree (OneOrMany.map Num.fin) data (n.toNat - 1)).bind fun last hl => (lenOf_agree last).bind fun count _ =>
    (asRows_agree count _).bind fun rows hr => ?_
  simp only [id]
  cases dtypesDos.get? count with
  | none => exact .inr rfl
  | some d =>
    have hne : rows ≠ [] := by
      rintro rfl
      have hl : data ≠ [] := by
        rintro rfl
        simp [idx] at hl
      have : data.take n.toNat ≠ [] := by
        intro h
        rcases List.take_eq_nil_iff.1 h with h | h
        · omega
        · exact hl h
      revert hr this
      cases data.take n.toNat with
      | nil => simp
      | cons a as =>
        intro hr _
        cases a with
        | one _ => cases hr
        | many r =>
          unfold Doscar.asRows at hr
          split at hr
          · obtain ⟨t, _, h⟩ := Res.bind_eq_ok.1 hr; cases h
          · cases hr
    show (if rows.map (List.map Num.fin) = [] then _ else _) = _
    rw [if_neg (by simpa using hne), List.map_map, List.map_map]
    exact congrArg Res.ok (List.map_congr_left fun row _ => record_lift _ _ row)

theorem sameRow_fin (x y : List Rat) : sameRow (x.map Num.fin) (y.map Num.fin) = decide (x = y) := by
  induction x generalizing y with
  | nil => cases y <;> simp [sameRow]
  | cons a as ih =>
    cases y with
    | nil => simp [sameRow]
    | cons b bs =>
      by_cases hab : a = b
      · subst hab; simp [sameRow, ih, Num.same]
      · simp [sameRow, ih, Num.same, hab]

theorem indexOf_lift (x : List Rat) (data : List (OneOrMany Rat)) :
    indexOf (x.map Num.fin) (data.map (OneOrMany.map Num.fin)) = Doscar.indexOf x data := by
  induction data with
  | nil => rfl
  | cons d ds ih =>
    rw [List.map_cons]
    unfold indexOf Doscar.indexOf
    rw [ih]
    cases d with
    | one a => simp [OneOrMany.map]
    | many l => simp [OneOrMany.map, sameRow_fin]

theorem blocks_lift (data : List (OneOrMany Rat)) (n s k : Nat) :
    blocks (data.map (OneOrMany.map Num.fin)) (n : Int) (s : Int) k = (Doscar.blocks data n s k).map (List.map (OneOrMany.map Num.fin)) := by
  induction k generalizing s with
  | zero => rfl
  | succ k ih =>
    unfold blocks Doscar.blocks
    rw [List.map_cons, slice_map, show (s : Int) + n = ((s + n : Nat) : Int) by omega, slice_nat, Nat.add_sub_cancel_left,
      show (s : Int) + (n + 1) = ((s + (n + 1) : Nat) : Int) by omega, ih]

theorem asBlocks_agree (c m : Nat) (items : List (List (OneOrMany Rat))) :
    Agree (List.map (List.map (List.map Num.fin))) (Doscar.asBlocks c m items) (asBlocks c m (items.map (List.map (OneOrMany.map Num.fin)))) := by
  induction items with
  | nil => exact rfl
  | cons b bs ih =>
    show Agree _ (if b.length = m then _ else _) (if (b.map (OneOrMany.map Num.fin)).length = m then _ else _)
    rw [List.length_map]
    split
    · exact (asRows_agree c b).bind fun r _ => ih.bind fun t _ => rfl
    · exact .inr rfl

theorem partialDos_agree (nc : Bool) (header : List Rat) (data : List (OneOrMany Rat)) (n : Nat) (k : Int) :
    Agree (List.map (List.map liftRecord)) (Doscar.partialDos nc header data n k)
      (partialDos nc (header.map Num.fin) (data.map (OneOrMany.map Num.fin)) n k) := by
  unfold Doscar.partialDos partialDos
  rw [indexOf_lift]
  cases Doscar.indexOf header data with
  | none => exact rfl
  | some p =>
    simp only
    rw [show ((p : Int) + 1) = ((p + 1 : Nat) : Int) by omega, blocks_lift, List.getLast?_map]
    cases (Doscar.blocks data n (p + 1) k.toNat).getLast? with
    | none => exact .inr rfl
    | some b =>
      simp only [Option.map_some]
      rw [List.getLast?_map, List.length_map]
      cases b.getLast? with
      | none => exact .inr rfl
      | some row =>
        simp only [Option.map_some]
        refine (lenOf_agree row).bind fun count _ => (asBlocks_agree count _ _).bind fun bs _ => Agree.same fun s _ => Agree.same fun d _ => ?_
        show Res.ok _ = Res.ok _
        simp only [List.map_map]
        refine congrArg Res.ok (List.map_congr_left fun b _ => ?_)
        simp only [Function.comp, List.map_map]
        exact List.map_congr_left fun row _ => record_lift _ _ row

/-- Both models agree where the first one describes the code. -/
theorem fromList_agree (nc : Bool) (lines : List Str) : Agree lift (Doscar.fromList nc lines) (fromList nc lines) := by
  unfold Doscar.fromList fromList
  refine Agree.same fun l0 _ => Agree.same fun v0 _ => Agree.same fun h0 g0 => Agree.same fun l3 _ => Agree.same fun coord _ => Agree.same fun l4 _ =>
    Agree.same fun l5 _ => (lineToType_agree toNum_agree l5).bind fun v5 _ => (unpack_agree Num.fin 5 v5).bind fun h5 g5 => ?_
  have len : ∀ {κ : Type} {n : Nat} {v : OneOrMany κ} {l : List κ}, unpack n v = .ok l → l.length = n := by
    intro κ n v l h
    unfold unpack at h
    split at h
    · split at h
      · cases h; assumption
      · cases h
    · cases h
  match h0, len g0, h5, len g5 with
  | [numIons, numAtoms, a, b], _, [emax, emin, nd, efermi, weight], _ =>
    simp only [List.map_cons, List.map_nil]
    unfold truncNum
    rw [Res.ok_bind]
    refine (Agree.mapM' (lineToType_agree toNum_agree) _).bind fun data _ => ?_
    split
    · exact .inl rfl
    · rename_i hn
      refine (totalDos_agree data _ (by omega)).bind fun dos _ => ?_
      have := partialDos_agree nc [emax, emin, nd, efermi, weight] data (truncInt nd).toNat numIons
      rw [show (((truncInt nd).toNat : Nat) : Int) = truncInt nd by omega] at this
      refine this.bind fun pdos _ => Agree.same fun cart _ => rfl

theorem init_agree (path : Option (Option Str)) (handler : Option Str) (nc : Bool) :
    Agree lift (Doscar.init path handler nc) (init path handler nc) := by
  unfold Doscar.init init
  cases handler with
  | some t => exact fromList_agree _ _
  | none => match path with
    | some (some t) => exact fromList_agree _ _
    | some none => exact rfl
    | none => exact rfl

end Verif.DoscarFull
