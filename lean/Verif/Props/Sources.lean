import Verif.Props.Stream
import Verif.Props.Doscar
import Verif.Props.Potcar
/-! # Where the read-only parsers take their text from (C69) -/
set_option autoImplicit false
namespace Verif.Sources
open Verif Verif.Utils

/-- How a parser treats its two sources. `init path handler`: `path` is `none` if not given, `some none` if there is no such file and
`some (some t)` if the file contains `t`; `handler` is the text a given file handler yields. -/
structure Reads {α : Type} (init : Option (Option Str) → Option Str → Res α) (nothing : Res α) : Prop where
  /-- Without any source the call ends with `nothing`. -/
  neither : init none none = nothing
  /-- A path without file exits with 14. -/
  missing : init (some none) none = .exit 14
  /-- A file and a handler with the same text give the same. -/
  same : ∀ t, init (some (some t)) none = init none (some t)
  /-- If both are given the handler is used. -/
  handler : ∀ p t, init p (some t) = init none (some t)

/-- C69 for OUTCAR. -/
theorem C69_outcar : Reads Outcar.init (.exit 10) := ⟨rfl, rfl, fun _ => rfl, fun _ _ => rfl⟩

/-- C69 for DOSCAR. -/
theorem C69_doscar (nonCollinear : Bool) : Reads (fun p h => Doscar.init p h nonCollinear) (.exit 10) :=
  ⟨rfl, rfl, fun _ => rfl, fun _ _ => rfl⟩

/-- C69 for EIGENVAL. -/
theorem C69_eigenval : Reads Eigenval.init (.exit 10) := ⟨rfl, rfl, fun _ => rfl, fun _ _ => rfl⟩

/-- C69 for CHGCAR. -/
theorem C69_chgcar : Reads Chgcar.init (.exit 10) := ⟨rfl, rfl, fun _ => rfl, fun _ _ => rfl⟩

/-- C69 for POTCAR: without source it is a `ValueError`. -/
theorem C69_potcar : Reads Potcar.init (.raise .valueError) := ⟨rfl, rfl, fun _ => rfl, fun _ _ => rfl⟩

/-- C69 for the standard stream: the same, where a missing file is noticed after the configuration has been read, so the configuration must
be one that is accepted with some text. -/
theorem C69_stream {Rx : Type} (E : Stream.Engine Rx) (dflt : Stream.Config Rx) (user : Option (Stream.Config Rx)) (history : Bool) :
    Stream.init E dflt user history none none = .exit 10 ∧
    ((∃ t o, Stream.init E dflt user history none (some t) = .ok o) → Stream.init E dflt user history (some none) none = .exit 14) ∧
    (∀ t, Stream.init E dflt user history (some (some t)) none = Stream.init E dflt user history none (some t)) ∧
    ∀ p t, Stream.init E dflt user history p (some t) = Stream.init E dflt user history none (some t) := by
  refine ⟨by simp [Stream.init], ?_, fun t => by simp [Stream.init], fun p t => by simp [Stream.init]⟩
  rintro ⟨t, o, h⟩
  unfold Stream.init at h ⊢
  rw [if_neg (by simp)] at h ⊢
  obtain ⟨kinds, hk, h⟩ := Res.bind_eq_ok.1 h
  obtain ⟨tt, ht, h⟩ := Res.bind_eq_ok.1 h
  simp only [hk, ht, Res.ok_bind]
  rfl

/-- Texts are told apart, so "the handler is used" says something: another file content gives another object. -/
example : Potcar.init (some (some [])) none ≠ Potcar.init (some (some [])) (some Potcar.sample) := by decide +kernel

end Verif.Sources
