import Verif.Props.LineEndsPotcar
/-! # C120: line ends do not matter (standard output; files given by their path) -/
set_option autoImplicit false
namespace Verif.Stream
open Verif Verif.Newlines
variable {Rx : Type}

theorem foldlM'_forall₂ {α σ : Type} {f : σ → α → Res σ} {A B : List α} (h : List.Forall₂ (fun a b => ∀ s, f s b = f s a) A B) :
    ∀ s, Res.foldlM' f s B = Res.foldlM' f s A := by
  induction h with
  | nil => intro s; rfl
  | cons hab _ ih =>
    intro s
    simp only [Res.foldlM', hab, ih]

/-- C120 for the standard output read from a file handler that does not translate line ends: if no configured pattern tells a line of the text
with a Windows line end from that line, the same triggers and the same reports in the same order. Missing: patterns that look at the line end, for which the claim is false (`C120_violation_*`). -/
theorem C120_stream_partial (E : Engine Rx) (dflt : Config Rx) (user : Option (Config Rx)) (hist : Bool) (u : Str) (o : Object Rx)
    (ho : init E dflt user hist none (some u) = .ok o)
    (hE : ∀ p ∈ o.configured, ∀ t ∈ p.2, ∀ rx ∈ t.regex, ∀ l, l ++ ['\n'] ∈ readlines u → E.search rx (l ++ ['\r', '\n']) = E.search rx (l ++ ['\n'])) :
    init E dflt user hist none (some (dos u)) = .ok o := by
  unfold init at ho ⊢
  simp only [Option.isNone_some, Bool.false_eq_true, and_false, if_false, Res.ok_bind] at ho ⊢
  obtain ⟨kinds, k1, ho⟩ := Res.bind_eq_ok.1 ho
  rw [k1, Res.ok_bind]
  obtain ⟨tt, k2, ho⟩ := Res.bind_eq_ok.1 ho
  rw [k2, Res.ok_bind]
  obtain ⟨st, k3, ho⟩ := Res.bind_eq_ok.1 ho
  have hconf : o.configured = extend kinds tt.1 tt.2 := by cases Res.ok.inj ho; rfl
  have hs : scan E hist (flat (extend kinds tt.1 tt.2)) {} (readlines (dos u)) = .ok st := by
    rw [← k3]
    unfold scan
    have hF : List.Forall₂ (fun a b => a ∈ readlines u ∧ OtherEnd a b ∧ b.getLast? = a.getLast?) (readlines u) (readlines (dos u)) := by
      have h := Outcar.readlines_dos_last u
      generalize readlines (dos u) = B at h
      have : ∀ (L A B : List Str), (∀ a ∈ A, a ∈ L) → List.Forall₂ (fun a b => OtherEnd a b ∧ b.getLast? = a.getLast?) A B →
          List.Forall₂ (fun a b => a ∈ L ∧ OtherEnd a b ∧ b.getLast? = a.getLast?) A B := by
        intro L A B hA h
        induction h with
        | nil => exact .nil
        | cons hab _ ih => exact .cons ⟨hA _ (by simp), hab⟩ (ih fun a ha => hA a (by simp [ha]))
      exact this _ _ _ (fun _ h => h) h
    refine foldlM'_forall₂ (hF.imp fun a b hab => ?_) _
    obtain ⟨ha, hab, hl⟩ := hab
    intro s
    have : ∀ (F : List ((Str × Nat) × Trigger Rx)), (∀ p ∈ F, p ∈ flat (extend kinds tt.1 tt.2)) → ∀ s : State Rx,
        Res.foldlM' (checkOne E hist b) s F = Res.foldlM' (checkOne E hist a) s F := by
      intro F hF
      induction F with
      | nil => intro s; rfl
      | cons p ps ih =>
        intro s
        have hp : checkOne E hist b s p = checkOne E hist a s p := by
          unfold checkOne checkLine
          cases hx : p.2.regex with
          | none => rfl
          | some rx =>
            obtain ⟨q, q1, q2⟩ := flat_mem (hF p (by simp))
            dsimp only
            have : E.search rx b = E.search rx a := by
              rcases hab with ⟨-, rfl⟩ | ⟨c, rfl, rfl | rfl⟩
              · rfl
              · exact hE q (hconf ▸ q1) p.2 q2 rx hx c ha
              · simp at hl
            rw [this]
        simp only [Res.foldlM', hp, ih fun x hx => hF x (by simp [hx])]
    exact this _ (fun _ hp => hp) s
  rw [hs]
  exact ho

/-- A phrase can only reach the carriage return of a Windows line end with a dot at its end, behind the rest of the phrase. -/
theorem occurs_cr {phrase l : Str} (hp : phrase ≠ []) (hn : '\n' ∉ phrase) (hr : '\r' ∉ phrase)
    (hd : phrase.getLast? = some '.' → ¬ ∃ b m, l = b ++ m ∧ List.Forall₂ (fun p c => p = '.' ∧ c ≠ '\n' ∨ p ≠ '.' ∧ p = c) phrase.dropLast m) :
    Occurs phrase (l ++ ['\r', '\n']) ↔ Occurs phrase (l ++ ['\n']) := by
  have e : l ++ ['\r', '\n'] = (l ++ ['\r']) ++ ['\n'] := by simp
  rw [e, occurs_final hp hn, occurs_final hp hn]
  constructor
  · rintro ⟨b, m, a, e, hm⟩
    rcases List.eq_nil_or_concat a with rfl | ⟨a', x, rfl⟩
    · exfalso
      obtain ⟨p', x, rfl⟩ : ∃ p' x, phrase = p' ++ [x] := ⟨phrase.dropLast, phrase.getLast hp, (List.dropLast_append_getLast hp).symm⟩
      obtain ⟨m', y, rfl, hm', hxy⟩ : ∃ m' y, m = m' ++ [y] ∧ List.Forall₂ (fun p c => p = '.' ∧ c ≠ '\n' ∨ p ≠ '.' ∧ p = c) p' m' ∧
          (x = '.' ∧ y ≠ '\n' ∨ x ≠ '.' ∧ x = y) := by
        have hlen := hm.length_eq
        simp only [List.length_append, List.length_singleton] at hlen
        rcases List.eq_nil_or_concat m with rfl | ⟨m', y, rfl⟩
        · simp at hlen
        · rw [List.concat_eq_append] at hm hlen ⊢
          simp only [List.length_append, List.length_singleton] at hlen
          have h := List.forall₂_iff_zip.1 hm
          have hl : p'.length = m'.length := by omega
          refine ⟨m', y, rfl, List.forall₂_iff_zip.2 ⟨hl, fun {a b} hab => h.2 ?_⟩, h.2 ?_⟩
          · rw [List.zip_append hl]; exact List.mem_append_left _ hab
          · rw [List.zip_append hl]; simp
      rw [List.append_nil, ← List.append_assoc] at e
      obtain ⟨e1, e2⟩ := List.append_inj' e rfl
      simp only [List.cons.injEq, and_true] at e2
      subst e2
      rcases hxy with ⟨rfl, -⟩ | ⟨-, rfl⟩
      · exact hd (by simp) ⟨b, m', e1, by simpa using hm'⟩
      · simp at hr
    · rw [List.concat_eq_append, ← List.append_assoc] at e
      obtain ⟨e1, -⟩ := List.append_inj' e rfl
      exact ⟨b, m, a', e1, hm⟩
  · rintro ⟨b, m, a, rfl, hm⟩
    exact ⟨b, m, a ++ ['\r'], by simp, hm⟩

theorem forall₂_nodot {p m : Str} (hp : '.' ∉ p) (h : List.Forall₂ (fun p c => p = '.' ∧ c ≠ '\n' ∨ p ≠ '.' ∧ p = c) p m) : p = m := by
  induction h with
  | nil => rfl
  | cons hx _ ih =>
    rw [ih fun hh => hp (by simp [hh])]
    rcases hx with ⟨rfl, -⟩ | ⟨-, rfl⟩
    · simp at hp
    · rfl

/-- C120 for the standard output with the shipped configuration: no line of the text ends with `vasp` or `Internal ERROR RSPHER`, the two phrases
whose pattern ends with a dot. -/
theorem C120_stream_shipped (hist : Bool) (u : Str)
    (h : ∀ l, l ++ ['\n'] ∈ readlines u → ¬ c!"vasp" <:+ l ∧ ¬ c!"Internal ERROR RSPHER" <:+ l) :
    init dotEngine (streamYml (List Char)) none hist none (some (dos u)) = init dotEngine (streamYml (List Char)) none hist none (some u) := by
  obtain ⟨o, ho, ht⟩ := shipped_init hist u
  rw [ho]
  refine C120_stream_partial _ _ _ _ u o ho fun p hp t htp rx hrx l hl => ?_
  have hm : shown t ∈ o.triggers.map shown := List.mem_map.2 ⟨t, List.mem_flatMap.2 ⟨p, hp, htp⟩, rfl⟩
  rw [ht] at hm
  have hall : ∀ x ∈ shipped.map (fun p => (p.1, some p.2, false)) ++ [(c!"nostart", some c!"vasp.", true)], ∀ r ∈ x.2.1, r ≠ [] ∧ '\n' ∉ r ∧ '\r' ∉ r ∧
      (r.getLast? = some '.' → (r.dropLast = c!"vasp" ∨ r.dropLast = c!"Internal ERROR RSPHER") ∧ '.' ∉ r.dropLast) := by
    decide +kernel
  obtain ⟨g1, g2, g3, g4⟩ := hall _ hm rx hrx
  show fits rx (l ++ ['\r', '\n']) = fits rx (l ++ ['\n'])
  rw [Bool.eq_iff_iff, fits_iff, fits_iff]
  refine occurs_cr g1 g2 g3 fun hd => ?_
  rintro ⟨b, m, e, hf⟩
  obtain ⟨g5, g6⟩ := g4 hd
  have hm := forall₂_nodot g6 hf
  have hsuf : rx.dropLast <:+ l := ⟨b, by rw [e, hm]⟩
  obtain ⟨k1, k2⟩ := h l hl
  rcases g5 with g5 | g5 <;> rw [g5] at hsuf
  · exact k1 hsuf
  · exact k2 hsuf

/-- C120 is false for the standard output from a file handler that does not translate line ends: behind the name of the error `RSPHER` without its
full stop the dot of the pattern finds the carriage return. -/
theorem C120_violation_stream : ∃ u : Str, ('\r' ∉ u) ∧
    (init dotEngine (streamYml (List Char)) none false none (some u) >>= fun o => .ok (o.entries.map Trigger.shortname)) = .ok [] ∧
    (init dotEngine (streamYml (List Char)) none false none (some (dos u)) >>= fun o => .ok (o.entries.map Trigger.shortname)) = .ok [c!"rspher"] :=
  ⟨c!" vasp.5.4.4\n Internal ERROR RSPHER\n", by decide, by decide +kernel, by decide +kernel⟩

/-- The hypothesis of `C120_stream_shipped` is met by an output with an error. -/
example : (∀ l, l ++ ['\n'] ∈ readlines c!" vasp.5.4.4\n WARNING: DENTET\n" → ¬ c!"vasp" <:+ l ∧ ¬ c!"Internal ERROR RSPHER" <:+ l) := by
  intro l hl
  have e : readlines c!" vasp.5.4.4\n WARNING: DENTET\n" = [c!" vasp.5.4.4" ++ ['\n'], c!" WARNING: DENTET" ++ ['\n']] := by decide
  rw [e] at hl
  simp only [List.mem_cons, List.not_mem_nil, or_false] at hl
  rcases hl with hl | hl <;> rw [(List.append_inj' hl rfl).1] <;> decide

end Verif.Stream

namespace Verif.Newlines
open Verif

/-- C120 for files given by their path: whether the lines of a file end with `\n`, `\r\n` or `\r` makes no difference to any parser. The file is
opened with the translation of line ends (`universal`). -/
theorem C120_path (t : Str) (h : '\r' ∉ t) (x : Str) (hx : x = dos t ∨ x = mac t) :
    (∀ (F : FloatEnv) (allowed : List Str) (vt : Bool),
      Incar.init F allowed vt { path := some (some (universal x)) } = Incar.init F allowed vt { path := some (some t) }) ∧
    Kpoints.init { path := some (some (universal x)) } = Kpoints.init { path := some (some t) } ∧
    Poscar.init { path := some (some (universal x)) } = Poscar.init { path := some (some t) } ∧
    Potcar.init (some (some (universal x))) none = Potcar.init (some (some t)) none ∧
    Outcar.init (some (some (universal x))) none = Outcar.init (some (some t)) none ∧
    (∀ nc : Bool, Doscar.init (some (some (universal x))) none nc = Doscar.init (some (some t)) none nc) ∧
    Eigenval.init (some (some (universal x))) none = Eigenval.init (some (some t)) none ∧
    Chgcar.init (some (some (universal x))) none = Chgcar.init (some (some t)) none ∧
    (∀ (Rx : Type) (E : Stream.Engine Rx) (dflt : Stream.Config Rx) (user : Option (Stream.Config Rx)) (hist : Bool),
      Stream.init E dflt user hist (some (some (universal x))) none = Stream.init E dflt user hist (some (some t)) none) := by
  have e : universal x = t := by
    obtain ⟨h1, h2, -⟩ := C120_universal t h
    rcases hx with rfl | rfl
    · exact h1
    · exact h2
  rw [e]
  exact ⟨fun _ _ _ => rfl, rfl, rfl, rfl, rfl, fun _ => rfl, rfl, rfl, fun _ _ _ _ _ => rfl⟩

example : universal c!"a\r\nb\rc\n\r\n" = c!"a\nb\nc\n\n" := by decide

end Verif.Newlines
