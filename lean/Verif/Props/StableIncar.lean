import Verif.Props.IncarWrite
/-! # C101: an INCAR that is read and written again does not change -/
set_option autoImplicit false
namespace Verif.Incar
open Verif Verif.Utils

theorem strLe_antisymm : ∀ {a b : Str}, strLe a b = true → strLe b a = true → a = b
  | [], [], _, _ => rfl
  | [], _ :: _, _, h => by simp [strLe] at h
  | _ :: _, [], h, _ => by simp [strLe] at h
  | x :: s, y :: t, h1, h2 => by
    simp only [strLe] at h1 h2
    by_cases hxy : x.toNat < y.toNat
    · simp [hxy, show ¬ y.toNat < x.toNat by omega] at h2
    · by_cases hyx : y.toNat < x.toNat
      · simp [hxy, hyx] at h1
      · simp only [hxy, hyx, if_false] at h1 h2
        rw [strLe_antisymm h1 h2, char_ext_toNat (show x.toNat = y.toNat by omega)]

theorem sortStrs_eq {a b : List Str} (h : a.Perm b) : sortStrs a = sortStrs b :=
  List.Perm.eq_of_pairwise (fun _ _ _ _ h1 h2 => strLe_antisymm h1 h2) (sortStrs_sorted a) (sortStrs_sorted b)
    (((sortStrs_perm a).trans h).trans (sortStrs_perm b).symm)

/-- The text depends on the keys, the texts of the values and, if they are written, the comments only. -/
theorem writeText_congr (b : Bool) (d d' : Entries) (hk : d.keys.Nodup) (hk' : d'.keys.Nodup)
    (hv : ∀ t, (get d' t).map valueStr = (get d t).map valueStr)
    (hc : b = true → ∀ t, (d'.get? t).map Item.comment = (d.get? t).map Item.comment) : writeText b d' = writeText b d := by
  have hperm : d'.keys.Perm d.keys := by
    refine (List.perm_ext_iff_of_nodup hk' hk).2 fun k => ?_
    rw [Dict.mem_keys_iff, Dict.mem_keys_iff]
    have := congrArg Option.isSome (hv k)
    simp only [get, Option.isSome_map] at this
    rw [this]
  unfold writeText
  rw [sortStrs_eq hperm]
  congr 1
  funext k
  have hvk := hv k
  have hck := fun h => hc h k
  simp only [get] at hvk
  cases h1 : d'.get? k with
  | none =>
    rw [h1] at hvk
    cases h2 : d.get? k with
    | none => rfl
    | some j => rw [h2] at hvk; cases hvk
  | some i =>
    rw [h1] at hvk hck
    cases h2 : d.get? k with
    | none => rw [h2] at hvk; cases hvk
    | some j =>
      rw [h2] at hvk hck
      simp only [Option.map_some, Option.some.injEq] at hvk hck
      dsimp only
      unfold writeLine
      rw [hvk]
      cases b with
      | true => rw [hck rfl]
      | false => cases i.comment <;> cases j.comment <;> rfl

theorem fromList_nodup {F : FloatEnv} {ls : List Str} {d : Entries} (h : fromList F ls = .ok d) : d.keys.Nodup := by
  rw [fromList_eq, Res.bind_eq_ok] at h
  obtain ⟨is, _, h2⟩ := h
  cases h2
  exact keys_foldl_nodup [] is (by simp [Dict.keys])

/-- C101 for INCAR, entries in memory: an INCAR all of whose entries are storable is written, read and written again as the same text. -/
theorem C101_incar_storable (F : FloatEnv) (b : Bool) (d : Entries) (hk : d.keys.Nodup) (hd : ∀ e ∈ d, e.1 = e.2.tag ∧ StorableItem F e.2) :
    ∃ d', fromList F (readlines (writeText b d)) = .ok d' ∧ writeText b d' = writeText b d := by
  obtain ⟨d', h1, h2, h3⟩ := C02_round_trip F b d hk hd
  exact ⟨d', h1, writeText_congr b d d' hk (fromList_nodup h1) (fun t => by rw [h2 t]) h3⟩

/-- Specification: no infinity or nan. -/
def Finite : Value → Prop
  | .one (.float f) => ∃ d, f = .fin d
  | .list l => ∀ x ∈ l, ∀ f, x = .float f → ∃ d, f = .fin d
  | _ => True

/-- A truth value in a list as the text it is written as. -/
def textScalar' : Scalar → Scalar
  | .bool b => .str (scalarStr (.bool b))
  | x => x

/-- A value with the truth values of lists as texts. -/
def textual : Value → Value
  | .list l => .list (l.map textScalar')
  | v => v

theorem valueStr_textual (v : Value) : valueStr (textual v) = valueStr v := by
  cases v with
  | list l =>
    simp only [textual, valueStr, List.map_map]
    congr 1
    apply List.map_congr_left
    intro x _
    cases x <;> rfl
  | one x => rfl
  | other => rfl

theorem plain_bool (b : Bool) : PlainWord (scalarStr (.bool b)) := by
  cases b
  · refine ⟨by unfold Token Free scalarStr; decide, by decide +kernel, ?_, by decide, by decide, by decide⟩
    intro f hf
    rcases hf with hf | hf
    · revert f; decide
    · revert f; decide
  · refine ⟨by unfold Token Free scalarStr; decide, by decide +kernel, ?_, by decide, by decide, by decide⟩
    intro f hf
    rcases hf with hf | hf
    · revert f; decide
    · revert f; decide

theorem strs_of {l : List Scalar} (h : ∀ x ∈ l, ∃ s, x = .str s ∧ PlainWord s) : ∃ ss : List Str, l = ss.map .str ∧ ∀ s ∈ ss, PlainWord s := by
  induction l with
  | nil => exact ⟨[], rfl, by simp⟩
  | cons x l ih =>
    obtain ⟨s, rfl, hs⟩ := h x (by simp)
    obtain ⟨ss, rfl, hss⟩ := ih fun y hy => h y (by simp [hy])
    exact ⟨s :: ss, rfl, by simpa using ⟨hs, hss⟩⟩

theorem textual_storable (F : FloatEnv) {v : Str} {val : Value} (h : cleanString F v = .ok val) (hl : Finite val)
    (hv : '=' ∉ v ∧ ';' ∉ v ∧ '#' ∉ v) : StorableValue F (textual val) := by
  by_cases hb : ∃ l b, val = .list l ∧ Scalar.bool b ∈ l
  · obtain ⟨l, b, rfl, hb⟩ := hb
    unfold cleanString at h
    cases hm : Res.mapM' (cleanToken F) (words v) with
    | exit => rw [hm] at h; cases h
    | raise => rw [hm] at h; cases h
    | ok r =>
      rw [hm] at h
      dsimp only at h
      split at h
      swap
      · cases h
      rename_i hs
      have hf := Res.mapM'_eq_ok.1 hm
      match r, hf with
      | [p], hf => cases h
      | [], hf => cases h; cases hb
      | p :: q :: r', hf =>
        cases h
        have hk : ∀ z ∈ p :: q :: r', z.1 = p.1 := by
          intro z hz
          have := List.all_eq_true.1 (show ((p :: q :: r').map Prod.fst).all (· == p.1) = true from hs) z.1 (List.mem_map.2 ⟨z, hz, rfl⟩)
          simpa using this
        have hne : (p :: q :: r').length ≠ 1 := by simp
        have hb' : Scalar.bool b ∈ (p :: q :: r').map Prod.snd := hb
        show StorableValue F (.list (((p :: q :: r').map Prod.snd).map textScalar'))
        generalize p :: q :: r' = R at *
        generalize p.1 = k at hk
        have hel : ∀ z ∈ R, ∃ w ∈ words v, cleanToken F w = .ok (k, z.2) := by
          intro z hz
          obtain ⟨w, hw, hc⟩ := forall₂_mem_right hf hz
          exact ⟨w, hw, by rw [hc, ← hk z hz]⟩
        have hkind : k = .string := by
          obtain ⟨z, hz, hzb⟩ := List.mem_map.1 hb'
          obtain ⟨w, _, hc⟩ := hel z hz
          rw [hzb] at hc
          rcases cleanToken_kind F hc with ⟨_, i, h⟩ | ⟨_, f, h, _⟩ | ⟨h, _⟩
          · cases h
          · cases h
          · exact h
        obtain ⟨ss, hss, hpl⟩ := strs_of (l := (R.map Prod.snd).map textScalar') (by
          intro x hx
          rw [List.map_map] at hx
          obtain ⟨z, hz, rfl⟩ := List.mem_map.1 hx
          obtain ⟨w, hw, hc⟩ := hel z hz
          rcases cleanToken_kind F hc with ⟨h, _⟩ | ⟨h, _⟩ | ⟨_, hp, hx⟩
          · rw [hkind] at h; cases h
          · rw [hkind] at h; cases h
          · rcases testStringForBool_cases w with ⟨b, hb⟩ | ⟨hb, hforms⟩
            · rw [hb] at hx
              exact ⟨_, by show textScalar' z.2 = _; rw [hx]; rfl, plain_bool b⟩
            · rw [hb] at hx
              exact ⟨w, by show textScalar' z.2 = _; rw [hx]; rfl, words_mem hw, hp, hforms, fun hc => hv.1 (words_sub hw hc),
                fun hc => hv.2.1 (words_sub hw hc), fun hc => hv.2.2 (words_sub hw hc)⟩)
        rw [hss]
        refine .strs ?_ hpl
        have := congrArg List.length hss
        simp only [List.length_map] at this
        rw [← this]; exact hne
  · have hlt : textual val = val := by
      cases val with
      | list l =>
        simp only [textual]
        congr 1
        conv_rhs => rw [← List.map_id l]
        apply List.map_congr_left
        intro x hx
        cases x with
        | bool b => exact absurd ⟨l, b, rfl, hx⟩ hb
        | _ => rfl
      | one x => rfl
      | other => rfl
    rw [hlt]
    refine storable_of_cleanString F h ?_ hv
    cases val with
    | list l => exact fun x hx => ⟨fun b hxb => hb ⟨l, b, rfl, hxb ▸ hx⟩, hl x hx⟩
    | one x => cases x <;> first | exact hl | trivial
    | other => trivial

/-- C101 for INCAR: the text written for a parsed file, with or without comments, read again and written again is the same text, byte for byte;
whatever the file holds but infinities and nans. (Values may change on the way, C02.) Missing: those, which cannot be read again
(`C02_violation_inf`). -/
theorem C101_incar_partial (F : FloatEnv) (b : Bool) (t : Str) (d : Entries) (h : fromList F (readlines t) = .ok d) (hl : ∀ e ∈ d, Finite e.2.value) :
    ∃ d', fromList F (readlines (writeText b d)) = .ok d' ∧ writeText b d' = writeText b d := by
  have hk := fromList_nodup h
  let f : Str × Item → Str × Item := fun e => (e.1, { e.2 with value := textual e.2.value })
  have hkeys : Dict.keys (d.map f) = d.keys := by
    unfold Dict.keys
    rw [List.map_map]; rfl
  have hget : ∀ (d : Entries) (k : Str), Dict.get? (d.map f) k = (d.get? k).map fun i => { i with value := textual i.value } := by
    intro d k
    induction d with
    | nil => rfl
    | cons a d ih =>
      simp only [List.map_cons, Dict.get?]
      split
      · rfl
      · exact ih
  have hst : ∀ e ∈ d.map f, e.1 = e.2.tag ∧ StorableItem F e.2 := by
    intro e he
    obtain ⟨e, hed, rfl⟩ := List.mem_map.1 he
    have hm : e.1 ∈ d.keys := List.mem_map.2 ⟨e, hed, rfl⟩
    obtain ⟨a, ha, i, hai, hit, hg⟩ := (C11_nothing_dropped F _ d h).2 e.1 hm
    have := Dict.get?_eq_some_of_mem d hk (k := e.1) (v := e.2) hed
    rw [hg] at this
    cases this
    obtain ⟨h1, h2⟩ := parsed_entry F t a e.2 ha hai
    refine ⟨hit.symm, h1, ?_⟩
    show if e.2.tag ∈ rawTags then RawValue (textual e.2.value) ∧ e.2.comment = none else _
    split
    · rename_i hr
      rw [if_pos hr] at h2
      obtain ⟨⟨s, hs, hrest⟩, hc⟩ := h2
      exact ⟨⟨s, by rw [hs]; rfl, hrest⟩, hc⟩
    · rename_i hr
      rw [if_neg hr] at h2
      obtain ⟨⟨v, hv, hvs⟩, hc⟩ := h2
      exact ⟨textual_storable F hv (hl e hed) hvs, hc⟩
  have hsame : writeText b (d.map f) = writeText b d := by
    apply writeText_congr b d (d.map f) hk (by rw [hkeys]; exact hk)
    · intro k
      simp only [get, hget]
      cases d.get? k with
      | none => rfl
      | some i => simp only [Option.map_some, valueStr_textual]
    · intro _ k
      rw [hget]
      cases d.get? k <;> rfl
  obtain ⟨d', h1, h2⟩ := C101_incar_storable F b (d.map f) (by rw [hkeys]; exact hk) hst
  rw [hsame] at h1 h2
  exact ⟨d', h1, h2⟩

/-- Decidable form of `Finite`, for examples. -/
def finiteB : Value → Bool
  | .one (.float (.fin _)) => true
  | .one (.float _) => false
  | .list l => l.all fun | .float (.fin _) => true | .float _ => false | _ => true
  | _ => true

theorem finite_of_B {v : Value} (h : finiteB v = true) : Finite v := by
  unfold finiteB at h
  split at h
  · exact ⟨_, rfl⟩
  · cases h
  · intro x hx f hf
    have := List.all_eq_true.1 h x hx
    subst hf
    cases f with
    | fin d => exact ⟨d, rfl⟩
    | inf => cases this
    | nan => cases this
  · rename_i hf hl
    unfold Finite; split
    · exact absurd rfl (hf _)
    · exact absurd rfl (hl _)
    · trivial

/-- The hypotheses are met by a file with a list of truth values, which changes into a list of texts while the written text does not. -/
example : ∃ d, fromList exactEnv (readlines c!"LVEC = .TRUE. .FALSE. x\nEDIFF = 1e-6 # tight\nSystem = a b\n") = .ok d ∧ (∀ e ∈ d, Finite e.2.value) ∧
    writeText true d = c!"EDIFF = 1e-06 # tight\nLVEC = True False x\nSYSTEM = a b\n" := by
  refine ⟨_, rfl, ?_, by decide +kernel⟩
  intro e he
  apply finite_of_B
  revert e
  decide +kernel

end Verif.Incar
