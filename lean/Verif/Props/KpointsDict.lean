import Verif.Model.KpointsDict
import Verif.Props.KpointsEdit
/-! # C81: the dictionary of a KPOINTS object -/
set_option autoImplicit false
namespace Verif.Kpoints
open Verif

theorem get?_mapM' {e : Entries} {d : Dict Str DictVal} (h : Res.mapM' entryToDict e = .ok d) (k : Str) :
    (e.get? k = none ∧ d.get? k = none) ∨
    ∃ v w, e.get? k = some v ∧ d.get? k = some w ∧ entryToDict (k, v) = .ok (k, w) := by
  induction e generalizing d with
  | nil => cases Res.ok.inj h; exact Or.inl ⟨rfl, rfl⟩
  | cons a t ih =>
    obtain ⟨ka, va⟩ := a
    unfold Res.mapM' at h
    split at h
    · rename_i b hb
      split at h
      · rename_i bs hbs
        cases Res.ok.inj h
        have hk : b.1 = ka := by
          unfold entryToDict at hb
          split at hb
          · split at hb
            · cases Res.ok.inj hb; rfl
            · obtain ⟨x, _, hx⟩ := Res.bind_eq_ok.1 hb
              cases Res.ok.inj hx; rfl
            · cases Res.ok.inj hb; rfl
            · cases hb
            · cases hb
          · cases Res.ok.inj hb; rfl
        obtain ⟨kb, vb⟩ := b
        simp only at hk
        subst hk
        by_cases hkk : kb = k
        · subst hkk
          exact Or.inr ⟨va, vb, by simp [Dict.get?], by simp [Dict.get?], hb⟩
        · rcases ih hbs with ⟨h1, h2⟩ | ⟨v, w, h1, h2, h3⟩
          · exact Or.inl ⟨by simp [Dict.get?, hkk, h1], by simp [Dict.get?, hkk, h2]⟩
          · exact Or.inr ⟨v, w, by simp [Dict.get?, hkk, h1], by simp [Dict.get?, hkk, h2], h3⟩
      · cases h
      · cases h
    · cases h
    · cases h

theorem mapM'_triples (l : List Kpoint) : Res.mapM' pointTriple (l.map fun a => Elem.atom (Atom.point a)) =
    .ok (l.map fun p => (p.coord, p.weight, p.direct)) := by
  induction l with
  | nil => rfl
  | cons a t ih =>
    rw [List.map_cons, List.map_cons]
    unfold Res.mapM'
    rw [ih]; rfl

/-- What `get_dict` shows for the points. -/
def shownPoints : Option (List Kpoint) → DictVal
  | some l => .points (l.map fun p => (p.coord, p.weight, p.direct))
  | none => .entry .none

theorem getDict_eq (e : Entries) (ps : Option (List Kpoint)) (hp : e.get? c!"points" = some (optVal (atomsVal .point) ps))
    (hu : e.keys.Nodup) :
    getDict e = .ok (e.map fun kv => (kv.1, if kv.1 = c!"points" then shownPoints ps else .entry kv.2)) := by
  unfold getDict
  refine mapM'_ok_map entryToDict (fun kv => (kv.1, if kv.1 = c!"points" then shownPoints ps else .entry kv.2)) e ?_
  rintro ⟨k, v⟩ hkv
  by_cases hk : k = c!"points"
  · subst hk
    have := Dict.get?_eq_some_of_mem e hu hkv
    rw [hp] at this
    cases Option.some.inj this
    cases ps with
    | none => simp [entryToDict, optVal, shownPoints]
    | some l => simp [entryToDict, optVal, atomsVal, mapM'_triples, shownPoints]
  · simp [entryToDict, hk]

/-- C81: the dictionary has, under every name, what the object holds; the points are given as coordinates, weight and flag of each
point, in order. -/
theorem C81_content (e : Entries) (ps : Option (List Kpoint)) (hp : e.get? c!"points" = some (optVal (atomsVal .point) ps))
    (hu : e.keys.Nodup) :
    ∃ d, getDict e = .ok d ∧ d.keys = e.keys ∧ (∀ k, k ≠ c!"points" → d.get? k = (e.get? k).map .entry) ∧
      d.get? c!"points" = some (shownPoints ps) := by
  have hd := getDict_eq e ps hp hu
  refine ⟨_, hd, by simp [Dict.keys, Function.comp_def], ?_, ?_⟩
  · intro k hk
    rcases get?_mapM' hd k with ⟨h1, h2⟩ | ⟨v, w, h1, h2, h3⟩
    · rw [h1, h2]; rfl
    · rw [h1, h2]
      simp only [entryToDict, if_neg hk] at h3
      have := congrArg Prod.snd (Res.ok.inj h3)
      simp only at this
      rw [← this]; rfl
  · rcases get?_mapM' hd c!"points" with ⟨h1, h2⟩ | ⟨v, w, h1, h2, h3⟩
    · rw [hp] at h1; cases h1
    · rw [h2]
      rw [hp] at h1
      cases Option.some.inj h1
      cases ps with
      | none =>
        simp only [entryToDict, optVal, if_pos] at h3
        exact congrArg (fun x => some x.2) (Res.ok.inj h3).symm
      | some l =>
        simp only [entryToDict, optVal, if_pos, atomsVal, mapM'_triples, Res.ok_bind] at h3
        exact congrArg (fun x => some x.2) (Res.ok.inj h3).symm

/-- C81, what is true of the round trip: if there are no explicit points (an automatic grid), a second object made from the
dictionary of a valid object has the same entries, so it is written alike. Missing: explicit points, for which the claim is false (`C81_violation_*`). -/
theorem C81_automatic_partial (e : Entries) (hp : e.get? c!"points" = some .none) (hu : e.keys.Nodup) (hv : validate e = .ok ()) :
    ∃ d, getDict e = .ok d ∧ init { dict := some (dictArg d) } = .ok e := by
  have hd := getDict_eq e none hp hu
  refine ⟨_, hd, ?_⟩
  have harg : dictArg (e.map fun kv => (kv.1, if kv.1 = c!"points" then shownPoints none else .entry kv.2)) = e := by
    unfold dictArg
    rw [List.map_map]
    conv_rhs => rw [← List.map_id e]
    refine List.map_congr_left ?_
    rintro ⟨k, v⟩ hkv
    by_cases hk : k = c!"points"
    · subst hk
      have := Dict.get?_eq_some_of_mem e hu hkv
      rw [hp] at this
      simp [shownPoints, DictVal.arg, Option.some.inj this]
    · simp [hk, DictVal.arg]
  rw [harg]
  simp [init, guards, load, hv]

/-- C81 is false with explicit points: for every valid object with at least one point, in explicit or line mode, the constructor
accepts the dictionary, but the object cannot be written: its points are lists. -/
theorem C81_violation_points (prec : Nat) (e : Entries) (cm : Option Str) (p : Parsed) (pt : Kpoint) (t : List Kpoint) (hh : Holds e cm p)
    (hs : Sound p) (hu : e.keys.Nodup) (hp : p.points = some (pt :: t)) (hm : p.mode = c!"explicit" ∨ p.mode = c!"line") :
    ∃ d e', getDict e = .ok d ∧ init { dict := some (dictArg d) } = .ok e' ∧ write prec e' = .raise .attributeError := by
  have hpp : e.get? c!"points" = some (optVal (atomsVal .point) p.points) := hh.points
  obtain ⟨d, hd, -, hother, hpts⟩ := C81_content e p.points hpp hu
  have hget : ∀ k, (dictArg d).get? k = (d.get? k).map DictVal.arg := by
    intro k
    unfold dictArg
    clear hd hother hpts
    induction d with
    | nil => rfl
    | cons a r ih =>
      by_cases hk : a.1 = k
      · simp [Dict.get?, hk]
      · simp only [List.map_cons, Dict.get?, hk, if_false]; exact ih
  have hoth : ∀ k, k ≠ c!"points" → (dictArg d).get? k = e.get? k := by
    intro k hk
    rw [hget, hother k hk]
    cases e.get? k <;> rfl
  have hpt : (dictArg d).get? c!"points" = some (.list ((pt :: t).map fun p => tripleElem (p.coord, p.weight, p.direct))) := by
    rw [hget, hpts, hp]
    simp [DictVal.arg, shownPoints, Function.comp_def]
  have hv : validate e = .ok () := validate_holds hh hs
  have hv' : validate (dictArg d) = .ok () := by
    rw [validate_ok_iff] at hv ⊢
    obtain ⟨h1, h2, h3, h4, h5, h6, h7, h8, h9, h10, h11⟩ := hv
    have ha : ∀ k v, k ≠ c!"points" → argOr (dictArg d) k v = argOr e k v := by
      intro k v hk; unfold argOr; rw [hoth k hk]
    have hl : ∀ k, k ≠ c!"points" → lookup (dictArg d) k = lookup e k := by
      intro k hk; unfold lookup; rw [hoth k hk]
    refine ⟨?_, ?_, ?_, ?_, ?_, ?_, ?_, ?_, ?_, ?_, ?_⟩
    · unfold checkDict lookup
      rw [hoth c!"divisions" (by decide), hoth c!"generating_vectors" (by decide), hpt, hh.divisions, hh.vectors]
      cases p.divisions <;> cases p.vectors <;> simp [optVal, atomsVal, rowsVal]
    · unfold checkComment at h2 ⊢
      rw [ha _ _ (by decide), hl _ (by decide)]; exact h2
    · unfold checkPoints
      rw [argOr_none hpt]; rfl
    · unfold checkCentering at h4 ⊢; rw [ha _ _ (by decide)]; exact h4
    · unfold checkDivisions at h5 ⊢; rw [ha _ _ (by decide)]; exact h5
    · unfold checkVectors at h6 ⊢; rw [ha _ _ (by decide)]; exact h6
    · unfold checkShifts at h7 ⊢; rw [ha _ _ (by decide)]; exact h7
    · unfold checkMode at h8 ⊢; rw [ha _ _ (by decide)]; exact h8
    · unfold checkNum at h9 ⊢; rw [ha _ _ (by decide)]; exact h9
    · unfold checkTetra at h10 ⊢; rw [ha _ _ (by decide)]; exact h10
    · unfold checkTetraVolume at h11 ⊢; rw [ha _ _ (by decide)]; exact h11
  refine ⟨d, dictArg d, hd, by simp [init, guards, load, hv'], ?_⟩
  unfold write
  rw [hv', Res.ok_bind]
  unfold lookup
  rw [hoth c!"comment" (by decide), hoth c!"mode" (by decide), hoth c!"num_kpoints" (by decide), hh.comment, hh.mode, hh.num]
  simp only [Res.ok_bind]
  rcases hm with hm | hm
  · rw [if_pos hm]
    unfold writeExplicit lookup
    rw [hpt]
    simp [overPoints, Res.mapM', tripleElem, writePoint]
  · rw [if_neg (by rw [hm]; decide), if_neg (by rw [hm]; decide), hpt]
    simp [overPoints, Res.mapM', tripleElem, writeLinePoint]

/-- Non-vacuity: an automatic grid makes the round trip, an explicit point does not. -/
example : (∃ e d, init { string := some c!"grid\n0\nGamma\n4 4 4\n0 0 0\n" } = .ok e ∧ getDict e = .ok d ∧
      init { dict := some (dictArg d) } = .ok e ∧ write 9 e = .ok c!"# grid\n0\nGamma\n            4             4             4\n  0.000000000   0.000000000   0.000000000\n") ∧
    ∃ e d, init { string := some c!"one point\n1\nDirect\n0.0 0.0 0.5 1.0\n" } = .ok e ∧ getDict e = .ok d ∧
      d.get? c!"points" = some (.points [([0, 0, 1/2], some 1, true)]) ∧
      ∃ e', init { dict := some (dictArg d) } = .ok e' ∧ write 9 e' = .raise .attributeError :=
  ⟨⟨_, _, rfl, rfl, by decide +kernel, by decide +kernel⟩, ⟨_, _, rfl, rfl, by decide +kernel, _, rfl, by decide +kernel⟩⟩

end Verif.Kpoints
