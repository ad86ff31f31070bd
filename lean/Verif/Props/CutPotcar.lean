import Verif.Props.Potcar
import Verif.Props.CutChgcar
/-! # POTCAR files cut off or joined (C95) -/
set_option autoImplicit false
namespace Verif.Potcar
open Verif Verif.Utils
open Verif.Outcar (cut)
open Verif.Chgcar (FirstAt cut_some cut_none)

/-- The text holds the first mark and behind it the second one. -/
def HasParameters (text : Str) : Prop :=
  ∃ a m b : Str, text = a ++ c!"parameters from PSCTR are:" ++ m ++ c!"END of PSCTR-controll parameters" ++ b

theorem firstAt_of_infix {p s : Str} (hp : p ≠ []) (h : p <:+: s) : ∃ a b, FirstAt p s a b := by
  cases hc : cut p s with
  | mk a y =>
    cases y with
    | none => exact absurd h ((cut_none hp).1 hc).2
    | some b => exact ⟨a, b, (cut_some hp).1 hc⟩

theorem hasParameters_iff (text : Str) : HasParameters text ↔ ∃ a r m b, FirstAt startMark text a r ∧ FirstAt endMark r m b := by
  constructor
  · rintro ⟨a, m, b, rfl⟩
    obtain ⟨x, y, h⟩ := firstAt_of_infix (p := startMark) (by decide) (s := a ++ c!"parameters from PSCTR are:" ++ m ++ c!"END of PSCTR-controll parameters" ++ b)
      ⟨a, m ++ c!"END of PSCTR-controll parameters" ++ b, by simp [startMark]⟩
    -- the first start mark is not behind this one, so the end mark is behind it
    have hx : x.length ≤ a.length := by
      by_contra hc
      refine h.2 a.length (by omega) ?_
      exact ⟨m ++ c!"END of PSCTR-controll parameters" ++ b, by simp [startMark]⟩
    have e := h.1
    have hy : endMark <:+: y := by
      have e2 : (a ++ startMark) ++ (m ++ endMark ++ b) = (x ++ startMark) ++ y := by
        rw [← e]; simp [startMark, endMark]
      obtain ⟨t, ht, ht2⟩ | ⟨t, ht, ht2⟩ := List.append_eq_append_iff.1 e2
      · have : t = [] := by
          have := congrArg List.length ht
          simp only [List.length_append] at this
          exact List.length_eq_zero_iff.1 (by omega)
        subst this
        rw [List.nil_append] at ht2
        exact ⟨m, b, ht2⟩
      · exact ⟨t ++ m, b, by rw [ht2]; simp⟩
    obtain ⟨u, v, hu⟩ := firstAt_of_infix (p := endMark) (by decide) hy
    exact ⟨x, y, u, v, h, hu⟩
  · rintro ⟨a, r, m, b, f1, f2⟩
    refine ⟨a, m, b, ?_⟩
    rw [f1.1, f2.1]
    simp [startMark, endMark]

/-- C95: a POTCAR cut off at any character gives what the complete file gives, or, cut in front of the end of 'END of PSCTR-controll
parameters', an error. What follows the first parameters (the potential itself, further potentials of a joined file) has no influence. -/
theorem C95_cut (p q : Str) : (HasParameters p → init none (some p) = init none (some (p ++ q))) ∧
    (¬ HasParameters p → init none (some p) = .raise .attributeError) := by
  constructor
  · intro h
    obtain ⟨a, r, m, b, f1, f2⟩ := (hasParameters_iff p).1 h
    show fromText p = fromText (p ++ q)
    unfold fromText
    rw [region_ok.2 ⟨a, r, m, b, f1, f2, rfl⟩, region_ok.2 ⟨a, _, m, _, f1.append q, f2.append q, rfl⟩]
  · intro h
    show fromText p = _
    unfold fromText
    have : region p = .raise .attributeError := by
      unfold region
      split
      · rename_i a r hc
        split
        · rename_i m b hc2
          exact absurd ((hasParameters_iff p).2 ⟨a, r, m, b, (cut_some (by decide)).1 hc, (cut_some (by decide)).1 hc2⟩) h
        · rfl
      · rfl
    rw [this]
    rfl

/-- Never other data: an accepted beginning of a file gives the data of the file. -/
theorem C95_never_other (p q : Str) (d : Data) (h : init none (some p) = .ok d) : init none (some (p ++ q)) = .ok d := by
  by_cases hp : HasParameters p
  · rw [← (C95_cut p q).1 hp]; exact h
  · rw [(C95_cut p q).2 hp] at h; cases h

/-- Both cases occur: `sample` cut behind and in front of the second mark. -/
example : ∃ p q r : Str, p ++ q ++ r = sample ∧ HasParameters (p ++ q) ∧ ¬ HasParameters p ∧ init none (some (p ++ q)) = .ok sampleData := by
  refine ⟨sample.take 426, (sample.take (sample.length - 12)).drop 426, sample.drop (sample.length - 12), by decide +kernel, ?_, ?_, by decide +kernel⟩
  · by_contra h
    have := (C95_cut _ []).2 h
    revert this
    decide +kernel
  · intro h
    obtain ⟨a, m, b, e⟩ := h
    have h2 : endMark <:+: sample.take 426 := ⟨a ++ c!"parameters from PSCTR are:" ++ m, b, by rw [e]; rfl⟩
    exact ((cut_none (a := sample.take 426) (by decide)).1 (by decide +kernel)).2 h2

end Verif.Potcar
