import Verif.Props.SpacingOutput
import Verif.Props.Chgcar
/-! # C102 for CHGCAR -/
set_option autoImplicit false
namespace Verif

theorem strip_single {s w : Str} (h : words s = [w]) : strip s = w := by
  have hs := strip_stripped s
  rw [← words_strip] at h
  generalize strip s = t at h hs
  by_cases hf : Free isSpace t
  · cases ht : t with
    | nil => rw [ht] at h; cases h
    | cons x xs => rw [words_free hf (by simp [ht])] at h; rw [← ht]; exact List.singleton_inj.1 h
  · exfalso
    have : ∃ c ∈ t, isSpace c = true := by
      unfold Free at hf
      push Not at hf
      obtain ⟨c, hc, hs⟩ := hf
      exact ⟨c, hc, by simpa using hs⟩
    obtain ⟨c, hc, hsp⟩ := this
    obtain ⟨a, b, rfl⟩ := List.append_of_mem hc
    rw [words_sep _ _ _ hsp] at h
    have ha : words a ≠ [] := by
      intro ha
      have := (Incar.words_eq_nil_iff a).1 ha
      cases a with
      | nil => have := hs.1 c rfl; rw [hsp] at this; cases this
      | cons x xs => have h1 := hs.1 x rfl; rw [this x (by simp)] at h1; cases h1
    have hb : words b ≠ [] := by
      intro hb
      have hbs := (Incar.words_eq_nil_iff b).1 hb
      have hl : ∃ d, (a ++ c :: b).getLast? = some d ∧ isSpace d = true := by
        cases b with
        | nil => exact ⟨c, by simp, hsp⟩
        | cons x xs =>
          refine ⟨(x :: xs).getLast (by simp), by simp [List.getLast?_append, List.getLast?_cons_cons, List.getLast?_eq_getLast], ?_⟩
          exact hbs _ (List.getLast_mem _)
      obtain ⟨d, hd, hd2⟩ := hl
      have := hs.2 d hd
      rw [hd2] at this; cases this
    have := congrArg List.length h
    simp only [List.length_append, List.length_singleton] at this
    have h1 := List.length_pos_iff.2 ha
    have h2 := List.length_pos_iff.2 hb
    omega

/-- What `float()` says depends on the words only. -/
theorem pyFloat_sameWords {a b : Str} (h : words a = words b) : pyFloat a = pyFloat b := by
  have key : ∀ {a b : Str}, words a = words b → (pyFloat a).isSome = true → pyFloat a = pyFloat b := by
    intro a b h ha
    have h1 := pyFloat_words ha
    have h2 := strip_single (h ▸ h1)
    rw [← pyFloat_strip a, ← pyFloat_strip b, h2]
  by_cases ha : (pyFloat a).isSome = true
  · exact key h ha
  · by_cases hb : (pyFloat b).isSome = true
    · exact (key h.symm hb).symm
    · simp only [Bool.not_eq_true, Option.isSome_eq_false_iff, Option.isNone_iff_eq_none] at ha hb
      rw [ha, hb]

namespace Chgcar
open Verif.Spacing Verif.Utils
open Verif.Kpoints (idx toFloat toInt)
open Verif.Outcar (cut)
open Verif.Lattice (V3 M3)

/-- Two data sets with the same words before the augmentation occupancies. -/
def SameNumbers (p q : Str) : Prop :=
  ∃ a b, Before c!"augmentation occupancies" p a ∧ Before c!"augmentation occupancies" q b ∧ words a = words b

theorem density_same {nz ny nx : Nat} {v : Rat} {p q : Str} (h : SameNumbers p q) : density nz ny nx v p = density nz ny nx v q := by
  obtain ⟨a, b, ha, hb, hw⟩ := h
  unfold density
  rw [(cut_fst (by decide)).2 ha, (cut_fst (by decide)).2 hb, hw]

theorem magnetization_same {nz ny nx : Nat} {v : Rat} {ps qs : List Str} (h : List.Forall₂ SameNumbers ps qs) :
    magnetization nz ny nx v ps = magnetization nz ny nx v qs := by
  match ps, qs, h with
  | [], [], _ => rfl
  | [_], [_], _ => rfl
  | [_, a], [_, a'], .cons _ (.cons h .nil) => unfold magnetization; dsimp only; rw [density_same h]
  | [_, _, _], [_, _, _], _ => rfl
  | [_, a, b, c], [_, a', b', c'], .cons _ (.cons h1 (.cons h2 (.cons h3 .nil))) =>
    unfold magnetization; dsimp only; rw [density_same h1, density_same h2, density_same h3]
  | _ :: _ :: _ :: _ :: _ :: _, _ :: _ :: _ :: _ :: _ :: _, _ => rfl

/-- C102 for CHGCAR: two texts with the same grid line, line by line the same words in the header and the same words in each data set before
the augmentation occupancies (line breaks inside a data set may differ as well) are read alike: the same data, or the same refusal.
`h`, `g` and `b` are the header, the first grid line and what is behind it, `ps` the data sets between the repetitions of the grid line. Missing: repetitions of the grid line with other blanks (`C102_violation_*`). -/
theorem C102_chgcar_partial (t u h h' r r' g b b' : Str) (ps ps' : List Str) (h1 : FirstAt c!"\n\n" t h r) (h1' : FirstAt c!"\n\n" u h' r')
    (h2 : FirstAt c!"\n" r g b) (h2' : FirstAt c!"\n" r' g b') (hw : Respaced (splitOn '\n' h) (splitOn '\n' h'))
    (h3 : Pieces g b ps) (h3' : Pieces g b' ps') (hps : List.Forall₂ SameNumbers ps ps') :
    init none (some t) = init none (some u) ∧ init (some (some t)) none = init (some (some u)) none := by
  have key : fromText t = fromText u := by
    have hl := hw.length_eq
    have hwi : ∀ (i : Nat) (a b : Str), (splitOn '\n' h)[i]? = some a → (splitOn '\n' h')[i]? = some b → words a = words b := forall₂_get hw
    have hv : ∀ (sc : Rat) (i : Nat), readVector sc (splitOn '\n' h) i = readVector sc (splitOn '\n' h') i := by
      intro sc i
      unfold readVector
      refine idx_congr hl _ fun a b ha hb => ?_
      rw [hwi _ _ _ ha hb]
    unfold fromText
    simp only [(cut_some (by decide)).2 h1, (cut_some (by decide)).2 h1', second, Res.ok_bind, (cut_some (by decide)).2 h2,
      (cut_some (by decide)).2 h2']
    refine idx_congr hl _ fun x y hx hy => ?_
    have : toFloat x = toFloat y := by unfold toFloat; rw [pyFloat_sameWords (hwi _ _ _ hx hy)]
    rw [this]
    congr 1; funext sc
    simp only [hv]
    congr 1; funext va
    congr 1; funext vb
    congr 1; funext vc
    cases hn : Res.mapM' toInt (words g) with
    | exit => rfl
    | raise => rfl
    | ok ngf =>
      simp only [Res.ok_bind]
      split
      · have hg : g ≠ [] := by rintro rfl; cases hn
        rw [(splitStr_iff hg _ _ _ le_rfl).2 h3, (splitStr_iff hg _ _ _ le_rfl).2 h3']
        split
        · rfl
        · cases hps with
          | nil => rfl
          | cons hp hps' =>
            show (density _ _ _ _ _ >>= _) = (density _ _ _ _ _ >>= _)
            rw [density_same hp, magnetization_same (.cons hp hps')]
      · rfl
  exact ⟨key, key⟩

/-- C102 is false for the repetitions of the grid line: if no repetition of the grid line is spelled exactly as the first one, the
magnetization is lost without complaint, provided that augmentation occupancies stand before it. -/
theorem C102_violation_chgcar (t u h r r' g b b' p : Str) (ps : List Str) (d : Data) (h1 : FirstAt c!"\n\n" t h r) (h1' : FirstAt c!"\n\n" u h r')
    (h2 : FirstAt c!"\n" r g b) (h2' : FirstAt c!"\n" r' g b') (h3 : Pieces g b (p :: ps)) (h3' : ¬ g <:+: b') (hp : SameNumbers p b')
    (hd : init none (some t) = .ok d) : init none (some u) = .ok ⟨d.total, .none⟩ := by
  have hd : fromText t = .ok d := hd
  show fromText u = _
  unfold fromText at hd ⊢
  simp only [(cut_some (by decide)).2 h1, (cut_some (by decide)).2 h1', second, Res.ok_bind, (cut_some (by decide)).2 h2,
    (cut_some (by decide)).2 h2'] at hd ⊢
  obtain ⟨s, g0, hd⟩ := Res.bind_eq_ok.1 hd
  rw [g0, Res.ok_bind]
  obtain ⟨sc, g1, hd⟩ := Res.bind_eq_ok.1 hd
  rw [g1, Res.ok_bind]
  obtain ⟨va, g2, hd⟩ := Res.bind_eq_ok.1 hd
  rw [g2, Res.ok_bind]
  obtain ⟨vb, g3, hd⟩ := Res.bind_eq_ok.1 hd
  rw [g3, Res.ok_bind]
  obtain ⟨vc, g4, hd⟩ := Res.bind_eq_ok.1 hd
  rw [g4, Res.ok_bind]
  obtain ⟨ngf, g5, hd⟩ := Res.bind_eq_ok.1 hd
  rw [g5, Res.ok_bind]
  split at hd
  · have hg : g ≠ [] := by rintro rfl; cases g5
    rw [(splitStr_iff hg _ _ _ le_rfl).2 h3] at hd
    rw [(splitStr_iff hg _ _ _ le_rfl).2 (.last h3')]
    split at hd
    · cases hd
    · rename_i hn
      rw [if_neg hn]
      obtain ⟨p0, q0, hd⟩ := Res.bind_eq_ok.1 hd
      cases Res.ok.inj q0
      obtain ⟨tot, q1, hd⟩ := Res.bind_eq_ok.1 hd
      obtain ⟨m, q2, hd⟩ := Res.bind_eq_ok.1 hd
      cases Res.ok.inj hd
      show (density _ _ _ _ _ >>= _) = _
      rw [← density_same hp, q1]
      rfl
  · cases hd

/-- The example file with one blank less on each repetition of the grid line: the components of the magnetization are gone. -/
def respacedText : Str := c!"cmt\n 2.0\n 1.0 0.0 0.0\n 0.0 1.0 0.0\n 0.0 0.0 0.5\nH\n1\nDirect\n 0 0 0\n\n  2  1  2\n 4.0 8.0 12.0\n 16.0\naugmentation occupancies 1 2\n 0.1 0.2\n 2  1  2\n 1 2 3 4\n 2  1  2\n 5 6 7 8\n 2  1  2\n 9 10 11 12\n"

example : respacedText.filter (· != ' ') = exampleText.filter (· != ' ') ∧ init none (some respacedText) = .ok ⟨[[[1, 2]], [[3, 4]]], .none⟩ := by
  constructor <;> decide +kernel

/-- Other blanks and line breaks in the data sets and in the header, read alike. -/
example : init none (some c!"cmt\n2.0  \n 1.0\t0.0 0.0\n 0.0 1.0 0.0\n 0.0 0.0   0.5\nH\n1\nDirect\n 0 0 0\n\n  2  1  2\n 4.0\n 8.0   12.0 16.0\naugmentation occupancies 1 2\n  2  1  2\n\n 1 2\n3  4 \n") =
    init none (some c!"cmt\n 2.0\n 1.0 0.0 0.0\n 0.0 1.0 0.0\n 0.0 0.0 0.5\nH\n1\nDirect\n 0 0 0\n\n  2  1  2\n 4.0 8.0 12.0\n 16.0\naugmentation occupancies 1 2\n 0.1 0.2\n  2  1  2\n 1 2 3 4\n") := by
  decide +kernel

end Chgcar

namespace Doscar

example : Respaced (readlines cutFile) (readlines c!"  1 1\t1 0\n0\n0\n  CAR\nname   \n2   -1 2 5 1\n1   2 3\n 2 3 4 \n 2 -1 2 5 1\n 1  5 6 7\n 2 6 7 8") ∧
    (init none (some cutFile) false).isOk = true :=
  ⟨Respaced.of_map (by decide +kernel), by decide +kernel⟩

end Doscar

namespace Eigenval

example : Respaced (readlines exampleText) (readlines c!"4 4 1  2\n0.1E+02 0.4 0.4\n 1.0E-4\nCAR\nsome name \n 8 2 2 \n\n0.0 0.0 0.0 0.5 \n  1 -6.1 -6.2\n 2 1.5 1.25\n\n   \n 0.5 0.0 0.0 0.5\n 1 -5.0 -5.5\n 2\t2.0 2.5\n") ∧
    init none (some exampleText) = .ok exampleData :=
  ⟨Respaced.of_map (by decide +kernel), by decide +kernel⟩

end Eigenval
end Verif
