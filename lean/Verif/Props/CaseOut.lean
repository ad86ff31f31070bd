import Verif.Props.Case
import Verif.Model.Incar
/-! # C106 for DOSCAR, EIGENVAL and INCAR -/
set_option autoImplicit false
namespace Verif
open Verif.Kpoints (idx toFloat toInt)

/-- One or many words in lower case. -/
def lowerWords : Utils.OneOrMany Str → Utils.OneOrMany Str
  | .one w => .one (lower w)
  | .many l => .many (l.map lower)

theorem mapM'_ok {α β : Type} (f : α → β) (l : List α) : Res.mapM' (fun a => Res.ok (f a)) l = .ok (l.map f) := by
  induction l with
  | nil => rfl
  | cons a as ih => simp [Res.mapM', ih]

theorem lineToType_words_lower (l : Str) : Utils.lineToType Res.ok (lower l) = (Utils.lineToType Res.ok l >>= fun w => .ok (lowerWords w)) := by
  unfold Utils.lineToType
  rw [words_lower, mapM'_map, mapM'_ok, show Res.mapM' Res.ok (words l) = .ok (words l) by
    have := mapM'_ok (fun w : Str => w) (words l); simpa using this]
  rcases words l with _ | ⟨a, _ | ⟨b, bs⟩⟩ <;> rfl

namespace Doscar

theorem startsC_lower (w : Str) : (startsWith ['c'] (lower w) || startsWith ['C'] (lower w)) = (startsWith ['c'] w || startsWith ['C'] w) := by
  cases w with
  | nil => rfl
  | cons x xs =>
    simp only [lower_cons, startsWith, Bool.and_true]
    rw [Bool.eq_iff_iff]
    simp only [Bool.or_eq_true, beq_iff_eq]
    constructor
    · rintro (h | h)
      · have h' := congrArg Char.toNat h
        rw [lowerC_toNat, show 'c'.toNat = 99 from rfl] at h'
        split at h'
        · right; exact char_ext_toNat (by rw [show 'C'.toNat = 67 from rfl]; omega)
        · left; exact char_ext_toNat h'
      · exfalso
        have h' := congrArg Char.toNat h
        rw [lowerC_toNat, show 'C'.toNat = 67 from rfl] at h'
        split at h'
        · rename_i hc; simp at hc; omega
        · rename_i hc; simp at hc; omega
    · rintro (rfl | rfl) <;> decide

theorem cartesianOf_lower (w : Utils.OneOrMany Str) : cartesianOf (lowerWords w) = cartesianOf w := by
  cases w with
  | one w => simp only [lowerWords, cartesianOf, startsC_lower]
  | many l => rfl

/-- The name in lower case. -/
def Data.lower (d : Data) : Data := { d with metadata := { d.metadata with name := Verif.lower d.metadata.name } }

theorem fromList_lower (nc : Bool) (L : List Str) : fromList nc (L.map lower) = (fromList nc L >>= fun d => .ok d.lower) := by
  unfold fromList
  simp only [idx_map, lineToType_lower toInt toInt_lower, lineToType_lower toFloat toFloat_lower, lineToType_words_lower, ← List.map_drop, mapM'_map,
    bind_assoc, Res.ok_bind]
  refine res_congr fun l0 => res_congr fun v0 => res_congr fun h0 => res_congr fun l3 => res_congr fun co => res_congr fun l4 => res_congr fun l5 =>
    res_congr fun v5 => res_congr fun h5 => ?_
  split
  · simp only [bind_assoc]
    refine res_congr fun data => ?_
    split
    · rfl
    · simp only [bind_assoc, cartesianOf_lower]
      refine res_congr fun dos => res_congr fun pdos => res_congr fun ca => ?_
      rw [Utils.lineToTypeNoSplit, strip_lower]
      rfl
  · rfl

/-- C106 for DOSCAR: texts that differ only in the case of letters are read alike: the same numbers, the name of the system up to the case of
letters, or the same refusal. -/
theorem C106_doscar (nc : Bool) (t u : Str) (h : SameButCase t u) :
    Alike (fun d d' : Data => d.dos = d'.dos ∧ d.pdos = d'.pdos ∧ SameButCase d.metadata.name d'.metadata.name ∧
        { d.metadata with name := d'.metadata.name } = d'.metadata) (init none (some t) nc) (init none (some u) nc) ∧
    Alike (fun d d' : Data => d.dos = d'.dos ∧ d.pdos = d'.pdos ∧ SameButCase d.metadata.name d'.metadata.name ∧
        { d.metadata with name := d'.metadata.name } = d'.metadata) (init (some (some t)) none nc) (init (some (some u)) none nc) := by
  have hr : (readlines t).map lower = (readlines u).map lower := by rw [← readlines_lower, ← readlines_lower, h]
  have key : Alike (fun d d' : Data => d.dos = d'.dos ∧ d.pdos = d'.pdos ∧ SameButCase d.metadata.name d'.metadata.name ∧
      { d.metadata with name := d'.metadata.name } = d'.metadata) (fromList nc (readlines t)) (fromList nc (readlines u)) := by
    refine alike_of_normal Data.lower ?_ (by rw [← fromList_lower, ← fromList_lower, hr])
    rintro ⟨m, a, b⟩ ⟨m', a', b'⟩ hd
    simp only [Data.lower, Data.mk.injEq, Metadata.mk.injEq] at hd
    obtain ⟨hm, rfl, rfl⟩ := hd
    obtain ⟨m1, m2, m3, m4, m5, m6, m7, m8, m9⟩ := hm
    refine ⟨rfl, rfl, m4, ?_⟩
    cases m; cases m'; simp_all
  exact ⟨key, key⟩

example : SameButCase c!"1 1 1 0\n1\n1\nCAR\nSi\n1 0 2 0 1\n0 1 2\n1 1 2\n" c!"1 1 1 0\n1\n1\ncar\nsi\n1 0 2 0 1\n0 1 2\n1 1 2\n" ∧
    (init none (some c!"1 1 1 0\n1\n1\nCAR\nSi\n1 0 2 0 1\n0 1 2\n1 1 2\n") false).isOk = true :=
  ⟨by decide +kernel, by decide +kernel⟩

end Doscar

namespace Eigenval

theorem isNl_lowerC (c : Char) : isNl (lowerC c) = isNl c := by
  unfold isNl; rw [lowerC_beq (by decide), lowerC_beq (by decide)]

theorem skipBlank_lower (s : Str) : skipBlank (lower s) = (skipBlank s).map lower := by
  induction s with
  | nil => rfl
  | cons c cs ih =>
    simp only [lower_cons, skipBlank, isSpace_lowerC, isNl_lowerC, ih]
    split
    · cases skipBlank cs with
      | some r => rfl
      | none => simp only [Option.map_none]; split <;> rfl
    · rfl

theorem splitEmpty_lower : ∀ (n : Nat) (s : Str), splitEmpty n (lower s) = (splitEmpty n s).map lower
  | n, [] => by cases n <;> rfl
  | 0, c :: cs => rfl
  | n + 1, c :: cs => by
    simp only [lower_cons, splitEmpty, isNl_lowerC, skipBlank_lower]
    split
    · cases skipBlank cs with
      | some r => simp only [Option.map_some, splitEmpty_lower n r]; rfl
      | none => simp only [Option.map_none, splitEmpty_lower n cs, consHead_lower]
    · rw [splitEmpty_lower n cs, consHead_lower]

theorem blocks_lower (s : Str) : blocks (lower s) = (blocks s).map fun b => b.map fun l => l.map lower := by
  unfold blocks
  have hl : (lower s).length = s.length := by simp [lower]
  rw [hl, splitEmpty_lower, List.map_map, List.map_map]
  apply List.map_congr_left
  intro b _
  simp only [Function.comp_apply, splitlines_lower, List.map_map]
  rw [List.filter_map, List.filter_map, List.map_map]
  have e1 : (fun l : List Str => !l.isEmpty) ∘ (words ∘ lower) = (fun l : List Str => !l.isEmpty) ∘ words := by
    funext l; simp only [Function.comp_apply, words_lower]; cases words l <;> rfl
  rw [e1]
  apply List.map_congr_left
  intro l _
  simp only [Function.comp_apply, words_lower]

theorem readBand_lower (ns nb k : Nat) (e : Values) (p : List Str) : readBand ns nb k e (p.map lower) = readBand ns nb k e p := by
  unfold readBand
  simp only [idx_map, toInt_lower, ← List.map_drop, ← List.map_take, mapM'_map, toFloat_lower]

theorem readBlock_lower (ns nb : Nat) (a : Arrays) (b : List (List Str)) (i : Nat) :
    readBlock ns nb a (b.map (fun l => l.map lower), i) = readBlock ns nb a (b, i) := by
  unfold readBlock
  cases b with
  | nil => rfl
  | cons f r => simp only [List.map_cons, mapM'_map, toFloat_lower, foldlM'_map, readBand_lower]

/-- The name in lower case. -/
def Data.lower (d : Data) : Data := { d with metadata := { d.metadata with name := Verif.lower d.metadata.name } }

theorem flatten_lower (L : List Str) : (L.map lower).flatten = lower L.flatten := by
  induction L with
  | nil => rfl
  | cons a as ih => simp [ih]

theorem fromList_lower (L : List Str) : fromList (L.map lower) = (fromList L >>= fun d => .ok d.lower) := by
  unfold fromList
  simp only [idx_map, lineToType_lower toInt toInt_lower, lineToType_lower toFloat toFloat_lower, lineToType_words_lower, ← List.map_drop,
    flatten_lower, blocks_lower, List.zipIdx_map, foldlM'_map, bind_assoc, Res.ok_bind]
  refine res_congr fun l0 => res_congr fun v0 => res_congr fun l1 => res_congr fun v1 => res_congr fun l2 => res_congr fun v2 => res_congr fun l3 =>
    res_congr fun co => res_congr fun l4 => res_congr fun l5 => res_congr fun v5 => res_congr fun h5 => res_congr fun h0 => ?_
  split
  · simp only [bind_assoc, Doscar.cartesianOf_lower]
    refine res_congr fun nk => res_congr fun ns => res_congr fun nb => ?_
    have e : (fun (s : Arrays) (a : List (List Str) × Nat) => readBlock ns nb s (Prod.map (fun b => b.map fun l => l.map lower) id a)) = readBlock ns nb := by
      funext s a
      obtain ⟨b, i⟩ := a
      exact readBlock_lower ns nb s b i
    rw [e]
    refine res_congr fun a => res_congr fun ca => ?_
    rw [Utils.lineToTypeNoSplit, strip_lower]
    rfl
  · rfl

/-- C106 for EIGENVAL: texts that differ only in the case of letters are read alike: the same numbers, the name of the system up to the case of
letters, or the same refusal. -/
theorem C106_eigenval (t u : Str) (h : SameButCase t u) :
    Alike (fun d d' : Data => d.arrays = d'.arrays ∧ SameButCase d.metadata.name d'.metadata.name ∧
        { d.metadata with name := d'.metadata.name } = d'.metadata) (init none (some t)) (init none (some u)) ∧
    Alike (fun d d' : Data => d.arrays = d'.arrays ∧ SameButCase d.metadata.name d'.metadata.name ∧
        { d.metadata with name := d'.metadata.name } = d'.metadata) (init (some (some t)) none) (init (some (some u)) none) := by
  have hr : (readlines t).map lower = (readlines u).map lower := by rw [← readlines_lower, ← readlines_lower, h]
  have key : Alike (fun d d' : Data => d.arrays = d'.arrays ∧ SameButCase d.metadata.name d'.metadata.name ∧
      { d.metadata with name := d'.metadata.name } = d'.metadata) (fromList (readlines t)) (fromList (readlines u)) := by
    refine alike_of_normal Data.lower ?_ (by rw [← fromList_lower, ← fromList_lower, hr])
    rintro ⟨m, a⟩ ⟨m', a'⟩ hd
    simp only [Data.lower, Data.mk.injEq, Metadata.mk.injEq] at hd
    obtain ⟨hm, rfl⟩ := hd
    refine ⟨rfl, hm.2.2.2.2.2.2.2.2.1, ?_⟩
    cases m; cases m'; simp_all
  exact ⟨key, key⟩

example : SameButCase c!"1 1 1 1\n1 2\n1 1\nCAR\nSi\n4 1 2\n\n0 0 0 1\n1 -5.0\n2 1E0\n" c!"1 1 1 1\n1 2\n1 1\ncar\nsI\n4 1 2\n\n0 0 0 1\n1 -5.0\n2 1e0\n" ∧
    (init none (some c!"1 1 1 1\n1 2\n1 1\nCAR\nSi\n4 1 2\n\n0 0 0 1\n1 -5.0\n2 1E0\n")).isOk = true :=
  ⟨by decide +kernel, by decide +kernel⟩

end Eigenval
end Verif
