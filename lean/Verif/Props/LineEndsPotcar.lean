import Verif.Props.LineEndsOut
import Verif.Props.CaseIncar
/-! # C120: line ends do not matter (POTCAR, EIGENVAL) -/
set_option autoImplicit false
namespace Verif.Newlines
open Verif Verif.Utils

theorem dos_append (a b : Str) : dos (a ++ b) = dos a ++ dos b := by simp [dos]
theorem dos_none {a : Str} (h : '\n' ∉ a) : dos a = a := by
  induction a with
  | nil => rfl
  | cons c cs ih =>
    have hc : c ≠ '\n' := fun hc => h (by simp [hc])
    rw [dos_cons hc, ih fun hh => h (by simp [hh])]
theorem dos_length (a : Str) : a.length ≤ (dos a).length := by
  induction a with
  | nil => simp [dos]
  | cons c cs ih =>
    by_cases hc : c = '\n'
    · subst hc; rw [dos_newline]; simp; omega
    · rw [dos_cons hc]; simpa using ih

/-- A run of characters of a class that does not tell the two line ends apart. -/
theorem spanP_dos {p : Char → Bool} (hp : p '\r' = p '\n') (s : Str) : spanP p (dos s) = (dos (spanP p s).1, dos (spanP p s).2) := by
  induction s with
  | nil => rfl
  | cons c cs ih =>
    by_cases hc : c = '\n'
    · subst hc
      rw [dos_newline, spanP, hp, spanP, spanP]
      by_cases h : p '\n' = true
      · simp only [h, if_true, ih]
        rfl
      · simp only [h, Bool.false_eq_true, if_false]
        rfl
    · rw [dos_cons hc, spanP, spanP]
      by_cases h : p c = true
      · simp only [h, if_true, ih]
        rw [dos_cons hc]
      · simp only [h, Bool.false_eq_true, if_false]
        rw [dos_cons hc]
        rfl

theorem startsWith_dos {p : Str} (hr : '\r' ∉ p) (hn : '\n' ∉ p) (s : Str) : startsWith p (dos s) = startsWith p s := by
  induction p generalizing s with
  | nil => rfl
  | cons a p ih =>
    have ih' := ih (fun h => hr (by simp [h])) (fun h => hn (by simp [h]))
    have h1 : a ≠ '\r' := fun h => hr (by simp [h])
    have h2 : a ≠ '\n' := fun h => hn (by simp [h])
    cases s with
    | nil => rfl
    | cons c cs =>
      by_cases hc : c = '\n'
      · subst hc
        rw [dos_newline]
        have e1 : (a == '\r') = false := by simpa using h1
        have e2 : (a == '\n') = false := by simpa using h2
        simp only [startsWith, e1, e2, Bool.false_and]
      · rw [dos_cons hc]
        simp only [startsWith, ih']

theorem drop_dos {p : Str} (hn : '\n' ∉ p) (s : Str) (h : startsWith p s = true) : (dos s).drop p.length = dos (s.drop p.length) := by
  obtain ⟨r, rfl⟩ : ∃ r, s = p ++ r := by
    induction p generalizing s with
    | nil => exact ⟨s, rfl⟩
    | cons a p ih =>
      cases s with
      | nil => simp [startsWith] at h
      | cons c cs =>
        simp only [startsWith, Bool.and_eq_true, beq_iff_eq] at h
        obtain ⟨r, rfl⟩ := ih (fun hh => hn (by simp [hh])) cs h.2
        exact ⟨r, by rw [h.1]; rfl⟩
  rw [dos_append, dos_none hn]
  simp

theorem cut_dos {p : Str} (hp : p ≠ []) (hr : '\r' ∉ p) (hn : '\n' ∉ p) (s : Str) :
    Outcar.cut p (dos s) = (dos (Outcar.cut p s).1, (Outcar.cut p s).2.map dos) := by
  induction s with
  | nil => rfl
  | cons c cs ih =>
    have hno : ∀ (x : Char) (t : Str), x ∉ p → startsWith p (x :: t) = false := by
      intro x t hx
      cases p with
      | nil => exact absurd rfl hp
      | cons a p =>
        have : a ≠ x := fun h => hx (by simp [h])
        simp [startsWith, this]
    by_cases hc : c = '\n'
    · subst hc
      rw [dos_newline, Outcar.cut, hno _ _ hr, Outcar.cut, hno _ _ hn, Outcar.cut, hno _ _ hn, ih]
      simp only [Bool.false_eq_true, if_false]
      rfl
    · have e1 := startsWith_dos hr hn (c :: cs)
      rw [dos_cons hc] at e1
      rw [dos_cons hc, Outcar.cut, Outcar.cut, e1]
      split
      · rename_i h
        have := drop_dos hn (c :: cs) h
        rw [dos_cons hc] at this
        rw [this]; rfl
      · rw [ih, dos_cons hc]

end Verif.Newlines

namespace Verif.Potcar
open Verif Verif.Utils Verif.Newlines
open Verif.Kpoints (idx toFloat toInt)

theorem afterEq_dos (s : Str) : afterEq (dos s) = (afterEq s).map dos := by
  cases s with
  | nil => rfl
  | cons c cs =>
    by_cases hc : c = '\n'
    · subst hc; rfl
    · rw [dos_cons hc, afterEq, afterEq]; split <;> rfl

theorem lastEq_mem : ∀ {w k r : Str}, lastEq w = some (k, r) → k.length + 1 + r.length = w.length ∧ ∀ c ∈ r, c ∈ w
  | [], k, r, h => by cases h
  | c :: cs, k, r, h => by
    unfold lastEq at h
    split at h
    · rename_i a b hab
      cases h
      obtain ⟨h1, h2⟩ := lastEq_mem hab
      exact ⟨by simp; omega, fun c hc => by simp [h2 c hc]⟩
    · cases cs with
      | nil => cases h
      | cons y ys =>
        by_cases hy : y = '='
        · simp only [afterEq, hy, if_true] at h
          cases h
          exact ⟨by simp; omega, fun c hc => by simp [hc]⟩
        · simp [afterEq, hy] at h

theorem keyAt_dos (s : Str) : keyAt (dos s) = (keyAt s).map fun kr => (kr.1, dos kr.2) := by
  unfold keyAt
  have h1 := spanP_dos (p := fun c => !isSpace c) (by decide) s
  have hw : '\n' ∉ (spanP (fun c => !isSpace c) s).1 := fun hc => by
    have := (spanP_split (fun c => !isSpace c) s).2.1 _ hc
    revert this; decide
  rw [dos_none hw] at h1
  simp only [h1]
  rw [spanP_dos (p := isSpace) (by decide), afterEq_dos]
  cases h2 : afterEq (spanP isSpace (spanP (fun c => !isSpace c) s).2).2 with
  | some r =>
    simp only [Option.map_some]
    split <;> rfl
  | none =>
    simp only [Option.map_none]
    cases h3 : lastEq (spanP (fun c => !isSpace c) s).1 with
    | none => rfl
    | some kr =>
      obtain ⟨k, r⟩ := kr
      simp only [Option.map_some]
      rw [dos_append, dos_none fun hc => hw ((lastEq_mem h3).2 _ hc)]

theorem keyAt_short {s k r : Str} (h : keyAt s = some (k, r)) : r.length < s.length := by
  unfold keyAt at h
  have e1 := congrArg List.length (spanP_split (fun c => !isSpace c) s).1
  rw [List.length_append] at e1
  have e2 := congrArg List.length (spanP_split isSpace (spanP (fun c => !isSpace c) s).2).1
  rw [List.length_append] at e2
  simp only at h
  split at h
  · rename_i r' hr
    split at h
    · cases h
    · cases h
      cases hq : (spanP isSpace (spanP (fun c => !isSpace c) s).2).2 with
      | nil => rw [hq] at hr; cases hr
      | cons y ys =>
        rw [hq] at hr e2
        by_cases hy : y = '='
        · simp only [afterEq, hy, if_true, Option.some.injEq] at hr
          subst hr
          simp at e2; omega
        · simp [afterEq, hy] at hr
  · split at h
    · rename_i k' r' hl
      cases h
      have := (lastEq_mem hl).1
      simp; omega
    · cases h

/-- The value at the front of the text with Windows line ends: with a carriage return if the line ends behind it. -/
theorem valueAt_dos (s : Str) : ∃ v, (valueAt s).1 = v ∧
    (((valueAt (dos s)).1 = v ∧ (valueAt (dos s)).2 = dos (valueAt s).2) ∨
      ∃ q, (valueAt s).2 = '\n' :: q ∧ (valueAt (dos s)).1 = v ++ ['\r'] ∧ (valueAt (dos s)).2 = '\n' :: dos q) := by
  unfold valueAt
  rw [spanP_dos (p := isSpace) (by decide)]
  generalize (spanP isSpace s).2 = u
  refine ⟨_, rfl, ?_⟩
  show ((spanP (fun x => !isEnd x) (dos u)).1 = _ ∧ (spanP (fun x => !isEnd x) (dos u)).2 = _) ∨ _
  induction u with
  | nil => exact .inl ⟨rfl, rfl⟩
  | cons c cs ih =>
    by_cases hc : c = '\n'
    · subst hc
      rw [dos_newline]
      exact .inr ⟨cs, rfl, rfl, rfl⟩
    · rw [dos_cons hc, spanP, spanP]
      by_cases he : isEnd c = true
      · simp only [he, Bool.not_true, Bool.false_eq_true, if_false]
        exact .inl ⟨trivial, by rw [dos_cons hc]⟩
      · simp only [he, Bool.not_false, if_true]
        rcases ih with ⟨h1, h2⟩ | ⟨q, h1, h2, h3⟩
        · exact .inl ⟨by rw [h1], h2⟩
        · exact .inr ⟨q, h1, by rw [h2]; rfl, h3⟩

theorem valueAt_short (s : Str) : (valueAt s).2.length ≤ s.length := by
  unfold valueAt
  have e1 := congrArg List.length (spanP_split isSpace s).1
  rw [List.length_append] at e1
  have e2 := congrArg List.length (spanP_split (fun x => !isEnd x) (spanP isSpace s).2).1
  rw [List.length_append] at e2
  omega

theorem keyAt_space {c : Char} (hc : isSpace c = true) (s : Str) : keyAt (c :: s) = none := by
  unfold keyAt
  have : spanP (fun c => !isSpace c) (c :: s) = ([], c :: s) := by simp [spanP, hc]
  simp only [this]
  cases afterEq (spanP isSpace (c :: s)).2 <;> simp [lastEq]

/-- The same entry, the value perhaps with a carriage return behind it. -/
def SameValue (a b : Str × Str) : Prop := b.1 = a.1 ∧ (b.2 = a.2 ∨ b.2 = a.2 ++ ['\r'])

theorem findAll_dos : ∀ (k : Nat) (s : Str), s.length ≤ k → ∀ n m, s.length ≤ m → (dos s).length ≤ n →
    List.Forall₂ SameValue (findAll m s) (findAll n (dos s))
  | _, [], _, n, m, _, _ => by
    have h : ∀ n, findAll n [] = [] := fun n => by cases n <;> rfl
    rw [h, show dos [] = [] from rfl, h]
    exact .nil
  | 0, c :: cs, hk, _, _, _, _ => by simp at hk
  | k + 1, c :: cs, hk, n, m, hm, hn => by
    have hk' : cs.length ≤ k := by simpa using hk
    obtain ⟨m, rfl⟩ : ∃ m', m = m' + 1 := ⟨m - 1, by simp at hm; omega⟩
    have hm' : cs.length ≤ m := by simpa using hm
    by_cases hc : c = '\n'
    · subst hc
      rw [dos_newline] at hn ⊢
      simp only [List.length_cons] at hn
      obtain ⟨n, rfl⟩ : ∃ n', n = n' + 1 + 1 := ⟨n - 2, by omega⟩
      rw [findAll, keyAt_space (by decide), findAll, keyAt_space (by decide), findAll, keyAt_space (by decide)]
      exact findAll_dos k cs hk' n m hm' (by omega)
    · have hkd := keyAt_dos (c :: cs)
      rw [dos_cons hc] at hn hkd ⊢
      simp only [List.length_cons] at hn
      obtain ⟨n, rfl⟩ : ∃ n', n = n' + 1 := ⟨n - 1, by omega⟩
      rw [findAll, findAll, hkd]
      cases hka : keyAt (c :: cs) with
      | none => exact findAll_dos k cs hk' n m hm' (by omega)
      | some kr =>
        obtain ⟨key, r⟩ := kr
        simp only [Option.map_some, Option.elim_some]
        have l1 := keyAt_short hka
        have l1' : (dos r).length < (c :: dos cs).length := by
          rw [hka] at hkd
          exact keyAt_short hkd
        have l2 := valueAt_short r
        have l2' := valueAt_short (dos r)
        simp only [List.length_cons] at l1 l1'
        obtain ⟨v, hv, hd⟩ := valueAt_dos r
        rcases hd with ⟨h1, h2⟩ | ⟨q, h1, h2, h3⟩
        · refine .cons ⟨rfl, .inl (by rw [h1, hv])⟩ ?_
          rw [h2] at l2' ⊢
          exact findAll_dos k _ (by omega) n m (by omega) (by omega)
        · refine .cons ⟨rfl, .inr (by simp only; rw [h2, hv])⟩ ?_
          rw [h1] at l2 ⊢
          rw [h3] at l2' ⊢
          simp only [List.length_cons] at l2 l2'
          obtain ⟨n, rfl⟩ : ∃ n', n = n' + 1 := ⟨n - 1, by omega⟩
          obtain ⟨m, rfl⟩ : ∃ m', m = m' + 1 := ⟨m - 1, by omega⟩
          rw [findAll, keyAt_space (by decide), findAll, keyAt_space (by decide)]
          exact findAll_dos k q (by omega) n m (by omega) (by omega)

theorem optional_cr {p : Char → Bool} (hp : p '\r' = false) (s : Str) : optional p (s ++ ['\r']) = ((optional p s).1, (optional p s).2 ++ ['\r']) := by
  cases s with
  | nil => simp [optional, hp]
  | cons c cs => rw [List.cons_append, optional, optional]; split <;> rfl

theorem converter_cr {key : Str} {f : Str → Res Value} (h : converter key = some f) (v : Str) : f (v ++ ['\r']) = f v := by
  have hs : strip (v ++ ['\r']) = strip v := Incar.strip_snoc_space v '\r' (by decide)
  unfold converter at h
  split at h
  · cases h; simp only [hs]
  split at h
  · cases h
    unfold toBool
    rw [optional_cr (by decide)]
    cases (optional (· == '.') v).2 with
    | nil => rfl
    | cons c cs => rfl
  split at h
  · cases h
    unfold toInteger
    simp only [optional_cr (p := (· == '-')) (by decide), spanP_snoc (p := isDigit) (x := '\r') (by decide)]
  split at h
  · cases h
    unfold toReal floatPart
    simp only [optional_cr (p := (· == '-')) (by decide), spanP_snoc (p := isDigit) (x := '\r') (by decide), optional_cr (p := (· == '.')) (by decide),
      optional_cr (p := fun x => x == 'e' || x == 'E') (by decide)]
  split at h
  · cases h
    unfold toReals
    rw [words_append_space v '\r' (by decide)]
  · cases h

theorem collect_dos {A B : List (Str × Str)} (h : List.Forall₂ SameValue A B) : ∀ d, collect d B = collect d A := by
  induction h with
  | nil => intro d; rfl
  | @cons a b A B hab _ ih =>
    obtain ⟨k, v⟩ := a
    obtain ⟨k', v'⟩ := b
    obtain ⟨h1, h2⟩ := hab
    simp only at h1 h2
    subst h1
    intro d
    rw [collect, collect]
    cases hc : converter k' with
    | none => exact ih d
    | some f =>
      have : f v' = f v := by
        rcases h2 with rfl | rfl
        · rfl
        · exact converter_cr hc v
      dsimp only
      rw [this]
      congr 1; funext x; exact ih _

theorem region_dos (t : Str) : region (dos t) = (region t >>= fun l => .ok (dos l)) := by
  unfold region
  rw [cut_dos (p := c!"parameters from PSCTR are:") (by decide) (by decide) (by decide)]
  cases h1 : Outcar.cut c!"parameters from PSCTR are:" t with
  | mk a r =>
    cases r with
    | none => rfl
    | some r =>
      dsimp only [Option.map]
      rw [cut_dos (p := c!"END of PSCTR-controll parameters") (by decide) (by decide) (by decide)]
      cases h2 : Outcar.cut c!"END of PSCTR-controll parameters" r with
      | mk m b =>
        cases b with
        | none => rfl
        | some b =>
          dsimp only [Option.map, Res.ok_bind]
          rw [dos_append, dos_append, dos_none (a := c!"parameters from PSCTR are:") (by decide), dos_none (a := c!"END of PSCTR-controll parameters") (by decide)]

/-- C120, POTCAR from a file handler that does not translate line ends: Windows line ends do not matter. -/
theorem C120_potcar (t : Str) : init none (some (dos t)) = init none (some t) := by
  show fromText (dos t) = fromText t
  unfold fromText
  rw [region_dos]
  cases h : region t with
  | ok l =>
    simp only [Res.ok_bind]
    rw [collect_dos (findAll_dos l.length l le_rfl _ _ le_rfl le_rfl)]
  | raise e => rfl
  | exit n => rfl

end Verif.Potcar

namespace Verif.Eigenval
open Verif Verif.Utils Verif.Newlines Verif.Spacing
open Verif.Kpoints (idx toFloat toInt)
open Verif.Doscar (unpack cartesianOf)

/-- `fromList` with the blocks given. -/
def fromBlocks (bs : List (List (List Str))) (lines : List Str) : Res Data :=
  idx lines 0 >>= fun l0 => lineToType toInt l0 >>= fun v0 =>
  idx lines 1 >>= fun l1 => lineToType toFloat l1 >>= fun v1 =>
  idx lines 2 >>= fun l2 => lineToType toFloat l2 >>= fun v2 =>
  idx lines 3 >>= fun l3 => lineToType Res.ok l3 >>= fun coord =>
  idx lines 4 >>= fun l4 =>
  idx lines 5 >>= fun l5 => lineToType toInt l5 >>= fun v5 => unpack 3 v5 >>= fun h5 =>
  unpack 4 v0 >>= fun h0 =>
  match h0, h5 with
  | [numIons, numAtoms, p00, numSpins], [param0, numKp, numBands] =>
    size numKp >>= fun nk => size numSpins >>= fun ns => size numBands >>= fun nb =>
    Res.foldlM' (readBlock ns nb) ⟨List.replicate nk [0, 0, 0, 0], List.replicate ns (List.replicate nk (List.replicate nb 0))⟩
      bs.zipIdx >>= fun a =>
    cartesianOf coord >>= fun cart =>
    .ok ⟨⟨h0, v1, v2, numIons, numAtoms, p00, numSpins, cart, lineToTypeNoSplit l4, param0, numBands, numKp⟩, a⟩
  | _, _ => .raise .valueError

theorem fromBlocks_dos (bs : List (List (List Str))) (t : Str) : fromBlocks bs (readlines (dos t)) = fromBlocks bs (readlines t) := by
  have hF := readlines_dos t
  have hl := hF.length_eq.symm
  have hwi : ∀ (i : Nat) (a b : Str), (readlines (dos t))[i]? = some a → (readlines t)[i]? = some b → words a = words b := fun i a b ha hb =>
    (forall₂_get hF i b a hb ha).words.symm
  unfold fromBlocks
  refine idx_congr hl 0 fun a b ha hb => ?_
  rw [lineToType_words _ (hwi _ _ _ ha hb)]
  congr 1; funext v0
  refine idx_congr hl 1 fun a b ha hb => ?_
  rw [lineToType_words _ (hwi _ _ _ ha hb)]
  congr 1; funext v1
  refine idx_congr hl 2 fun a b ha hb => ?_
  rw [lineToType_words _ (hwi _ _ _ ha hb)]
  congr 1; funext v2
  refine idx_congr hl 3 fun a b ha hb => ?_
  rw [lineToType_words _ (hwi _ _ _ ha hb)]
  congr 1; funext coord
  refine idx_congr hl 4 fun a4 b4 ha4 hb4 => ?_
  refine idx_congr hl 5 fun a b ha hb => ?_
  rw [lineToType_words _ (hwi _ _ _ ha hb)]
  unfold lineToTypeNoSplit
  rw [(forall₂_get hF 4 b4 a4 hb4 ha4).strip]

theorem fromBlocks_empty {bs bs' : List (List (List Str))} {lines : List Str} {d : Data} (h : fromBlocks bs lines = .ok d) :
    fromBlocks ([] :: bs') lines = .raise .indexError := by
  unfold fromBlocks at h ⊢
  obtain ⟨l0, e, h⟩ := Res.bind_eq_ok.1 h; rw [e, Res.ok_bind]
  obtain ⟨v0, e, h⟩ := Res.bind_eq_ok.1 h; rw [e, Res.ok_bind]
  obtain ⟨l1, e, h⟩ := Res.bind_eq_ok.1 h; rw [e, Res.ok_bind]
  obtain ⟨v1, e, h⟩ := Res.bind_eq_ok.1 h; rw [e, Res.ok_bind]
  obtain ⟨l2, e, h⟩ := Res.bind_eq_ok.1 h; rw [e, Res.ok_bind]
  obtain ⟨v2, e, h⟩ := Res.bind_eq_ok.1 h; rw [e, Res.ok_bind]
  obtain ⟨l3, e, h⟩ := Res.bind_eq_ok.1 h; rw [e, Res.ok_bind]
  obtain ⟨v3, e, h⟩ := Res.bind_eq_ok.1 h; rw [e, Res.ok_bind]
  obtain ⟨l4, e, h⟩ := Res.bind_eq_ok.1 h; rw [e, Res.ok_bind]
  obtain ⟨l5, e, h⟩ := Res.bind_eq_ok.1 h; rw [e, Res.ok_bind]
  obtain ⟨v5, e, h⟩ := Res.bind_eq_ok.1 h; rw [e, Res.ok_bind]
  obtain ⟨h5, e, h⟩ := Res.bind_eq_ok.1 h; rw [e, Res.ok_bind]
  obtain ⟨h0, e, h⟩ := Res.bind_eq_ok.1 h; rw [e, Res.ok_bind]
  split at h
  · obtain ⟨nk, e, h⟩ := Res.bind_eq_ok.1 h; rw [e, Res.ok_bind]
    obtain ⟨ns, e, h⟩ := Res.bind_eq_ok.1 h; rw [e, Res.ok_bind]
    obtain ⟨nb, e, h⟩ := Res.bind_eq_ok.1 h; rw [e, Res.ok_bind]
    rfl
  · cases h

theorem skipBlank_some (a r : Str) (h : ∀ c ∈ a, isSpace c = true) : ∃ q, skipBlank (a ++ '\n' :: r) = some q := by
  induction a with
  | nil =>
    simp only [List.nil_append, skipBlank, show isSpace '\n' = true by decide, show isNl '\n' = true by decide, if_true]
    split <;> exact ⟨_, rfl⟩
  | cons c cs ih =>
    obtain ⟨q, hq⟩ := ih fun x hx => h x (by simp [hx])
    exact ⟨q, by simp [skipBlank, h c (by simp), hq]⟩

theorem splitEmpty_blank (a r : Str) (h : ∀ c ∈ a, isSpace c = true) : ∀ n, (a ++ '\r' :: '\n' :: r).length ≤ n →
    ∃ b bs, splitEmpty n (a ++ '\r' :: '\n' :: r) = b :: bs ∧ ∀ c ∈ b, isSpace c = true := by
  induction a with
  | nil =>
    intro n hn
    obtain ⟨n, rfl⟩ : ∃ m, n = m + 1 := ⟨n - 1, by simp at hn; omega⟩
    obtain ⟨q, hq⟩ := skipBlank_some [] r (by simp)
    refine ⟨[], splitEmpty n q, ?_, by simp⟩
    rw [List.nil_append] at hq ⊢
    rw [splitEmpty, if_pos (by decide), hq]
  | cons c cs ih =>
    intro n hn
    simp only [List.cons_append, List.length_cons] at hn
    obtain ⟨n, rfl⟩ : ∃ m, n = m + 1 := ⟨n - 1, by omega⟩
    have hcs : ∀ x ∈ cs, isSpace x = true := fun x hx => h x (by simp [hx])
    obtain ⟨b, bs, h1, h2⟩ := ih hcs n (by omega)
    rw [List.cons_append, splitEmpty]
    split
    · obtain ⟨q, hq⟩ := skipBlank_some (cs ++ ['\r']) r (by
        intro x hx
        rcases List.mem_append.1 hx with hx | hx
        · exact hcs x hx
        · rw [List.mem_singleton.1 hx]; decide)
      rw [List.append_assoc] at hq
      simp only [List.cons_append, List.nil_append] at hq
      rw [hq]
      exact ⟨[], _, rfl, by simp⟩
    · rw [h1]
      refine ⟨c :: b, bs, rfl, fun x hx => ?_⟩
      rcases List.mem_cons.1 hx with rfl | hx
      · exact h x (by simp)
      · exact h2 x hx

theorem blank_block {b : Str} (h : ∀ c ∈ b, isSpace c = true) : (((splitlines b).map words).filter fun l => !l.isEmpty) = [] := by
  rw [List.filter_eq_nil_iff]
  intro w hw
  obtain ⟨l, hl, rfl⟩ := List.mem_map.1 hw
  have : words l = [] := words_eq_nil.2 fun c hc => h c (((Verif.Incar.splitlines_infix b).2 l hl).subset hc)
  simp [this]

/-- C120 is false for every EIGENVAL with the blank line VASP writes behind the header: from a file handler that does not translate line ends it
is refused with Windows line ends. -/
theorem C120_violation_eigenval (t bl : Str) (d : Data) (h : init none (some t) = .ok d) (hl : (readlines t)[6]? = some (bl ++ ['\n']))
    (hb : ∀ c ∈ bl, isSpace c = true) : init none (some (dos t)) = .raise .indexError := by
  replace h : fromBlocks (blocks ((readlines t).drop 6).flatten) (readlines t) = .ok d := h
  show fromBlocks (blocks ((readlines (dos t)).drop 6).flatten) (readlines (dos t)) = _
  rw [fromBlocks_dos]
  have key : ∃ bs, blocks ((readlines (dos t)).drop 6).flatten = [] :: bs := by
    have hd : (readlines t).drop 6 = (bl ++ ['\n']) :: (readlines t).drop 7 := by
      rw [List.getElem?_eq_some_iff] at hl
      obtain ⟨h1, h2⟩ := hl
      rw [List.drop_eq_getElem_cons h1, h2]
    have hF := forall₂_drop 6 (Outcar.readlines_dos_last t)
    rw [hd] at hF
    obtain ⟨m, rest, ⟨hm, hlast⟩, hrest, e⟩ := List.forall₂_cons_left_iff.1 hF
    rw [e, List.flatten_cons]
    have hm : m = bl ++ ['\r', '\n'] := by
      rcases hm with ⟨hn, -⟩ | ⟨a, ha, rfl | rfl⟩
      · simp at hn
      · rw [(List.append_inj' ha rfl).1]
      · simp at hlast
    have e2 : m ++ rest.flatten = bl ++ '\r' :: '\n' :: rest.flatten := by rw [hm]; simp
    rw [e2]
    obtain ⟨b, bs, h1, h2⟩ := splitEmpty_blank bl rest.flatten hb _ le_rfl
    refine ⟨_, by unfold blocks; rw [h1, List.map_cons, blank_block h2]⟩
  obtain ⟨bs, e⟩ := key
  rw [e]
  exact fromBlocks_empty h

/-- Such a file. -/
example : init none (some exampleText) = .ok exampleData ∧ (readlines exampleText)[6]? = some ([] ++ ['\n']) ∧
    init none (some (dos exampleText)) = .raise .indexError := by decide +kernel

end Verif.Eigenval
