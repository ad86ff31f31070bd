import Verif.Props.StreamApi
import Verif.Lemmas.Cut
/-! # Streams that grow (C96) -/
set_option autoImplicit false
namespace Verif.Stream
open Verif
variable {Rx : Type}

/-- What checking more lines can do. -/
def Grows (s t : State Rx) : Prop := (∃ more, t.streams = s.streams ++ more ∧ ∀ x ∈ more, x.inverse = false) ∧ ∃ more, t.inverse = s.inverse ++ more

theorem Grows.refl (s : State Rx) : Grows s s := ⟨⟨[], by simp, by simp⟩, ⟨[], by simp⟩⟩

theorem Grows.trans {s t u : State Rx} (h : Grows s t) (k : Grows t u) : Grows s u := by
  obtain ⟨⟨m, e, hm⟩, n, f⟩ := h
  obtain ⟨⟨m', e', hm'⟩, n', f'⟩ := k
  refine ⟨⟨m ++ m', by rw [e', e]; simp, ?_⟩, n ++ n', by rw [f', f]; simp⟩
  intro x hx
  rcases List.mem_append.1 hx with h | h
  · exact hm x h
  · exact hm' x h

theorem foldl_grows {α : Type} (f : State Rx → α → Res (State Rx)) (hf : ∀ s a t, f s a = .ok t → Grows s t) :
    ∀ (l : List α) (s t : State Rx), Res.foldlM' f s l = .ok t → Grows s t
  | [], s, t, h => by cases h; exact Grows.refl _
  | a :: l, s, t, h => by
    unfold Res.foldlM' at h
    cases hb : f s a with
    | ok u => rw [hb] at h; exact (hf s a u hb).trans (foldl_grows f hf l u t h)
    | exit c => rw [hb] at h; cases h
    | raise e => rw [hb] at h; cases h

theorem checkOne_grows (E : Engine Rx) (hist : Bool) (line : Str) (s : State Rx) (p : (Str × Nat) × Trigger Rx) (t : State Rx)
    (h : checkOne E hist line s p = .ok t) : Grows s t := by
  unfold checkOne at h
  split at h
  · cases h; exact Grows.refl _
  · obtain ⟨b, _, h⟩ := Res.bind_eq_ok.1 h
    split at h
    · cases h
      by_cases hi : p.2.inverse = true
      · exact ⟨⟨[], by simp [hi], by simp⟩, [p.2.shortname], by simp [hi]⟩
      · exact ⟨⟨[p.2], by simp [hi], by simpa using hi⟩, [], by simp [hi]⟩
    · cases h; exact Grows.refl _

theorem scan_grows (E : Engine Rx) (hist : Bool) (all : List ((Str × Nat) × Trigger Rx)) (s t : State Rx) (lines : List Str)
    (h : scan E hist all s lines = .ok t) : Grows s t :=
  foldl_grows _ (fun s _ t h => foldl_grows _ (fun s p t h => checkOne_grows E hist _ s p t h) _ s t h) _ s t h

/-- C96: the standard output of a calculation that goes on. If the output up to some line end and further lines is accepted, so is the
output up to that line end, with the same configured streams; the reports of the longer output begin with those of the shorter one, followed
by new ones; only reports that something is absent ("inverse" streams) can disappear, and none of them can appear. -/
theorem C96_grows (E : Engine Rx) (dflt : Config Rx) (user : Option (Config Rx)) (hist : Bool) (hd : dflt.keys.Nodup) (p q : Str) (hp : LineEnd p)
    (o' : Object Rx) (h : init E dflt user hist none (some (p ++ q)) = .ok o') :
    ∃ o, init E dflt user hist none (some p) = .ok o ∧ o.configured = o'.configured ∧ o.kinds = o'.kinds ∧
      ∃ found new missing missing', o.entries = found ++ missing ∧ o'.entries = found ++ new ++ missing' ∧ (∀ t ∈ found ++ new, t.inverse = false) ∧
        (∀ t ∈ missing, t.inverse = true) ∧ missing'.Sublist missing := by
  obtain ⟨text, kinds, tt, st, ht, h1, h2, h3, rfl⟩ := init_ok h
  cases Option.some.inj ht
  rw [readlines_lineEnd hp] at h3
  have h3' := h3
  unfold scan at h3'
  rw [Res.foldlM'_append] at h3'
  obtain ⟨s1, k1, k2⟩ := Res.bind_eq_ok.1 h3'
  have k1 : scan E hist (flat (extend kinds tt.1 tt.2)) {} (readlines p) = .ok s1 := k1
  have k2 : scan E hist (flat (extend kinds tt.1 tt.2)) s1 (readlines q) = .ok st := k2
  have P := build_prepared (effective_nodup dflt user hd) h1 h2
  obtain ⟨⟨m1, e1, i1⟩, _⟩ := scan_grows E hist _ _ _ _ k1
  obtain ⟨⟨m2, e2, i2⟩, n2, f2⟩ := scan_grows E hist _ _ _ _ k2
  have e1 : s1.streams = m1 := by rw [e1]; rfl
  refine ⟨⟨extend kinds tt.1 tt.2, kinds, s1.streams ++ undetected tt.2 s1.inverse⟩, ?_, rfl, rfl, s1.streams, m2, undetected tt.2 s1.inverse,
    undetected tt.2 st.inverse, rfl, by rw [e2], ?_, fun t ht => undetected_inverse P ht, ?_⟩
  · unfold effective at h1 h2
    unfold init
    simp only [Option.isNone_some, Bool.false_eq_true, and_false, if_false]
    cases user with
    | none => simp only at h1 h2 ⊢; rw [h1, Res.ok_bind, h2, Res.ok_bind, Res.ok_bind, k1, Res.ok_bind]
    | some u => simp only at h1 h2 ⊢; rw [h1, Res.ok_bind, h2, Res.ok_bind, Res.ok_bind, k1, Res.ok_bind]
  · intro t ht
    rcases List.mem_append.1 ht with ht | ht
    · exact i1 t (by rw [← e1]; exact ht)
    · exact i2 t ht
  · unfold undetected
    have : (tt.2.flatMap Prod.snd).filter (fun t => decide (t.shortname ∉ st.inverse)) =
        ((tt.2.flatMap Prod.snd).filter (fun t => decide (t.shortname ∉ s1.inverse))).filter (fun t => decide (t.shortname ∉ n2)) := by
      rw [List.filter_filter]
      refine List.filter_congr fun t _ => ?_
      rw [f2]
      simp only [List.mem_append, not_or, Bool.decide_and]
      rw [Bool.and_comm]
    rw [this]
    exact List.filter_sublist

theorem Occurs.append {phrase line : Str} (h : Occurs phrase line) (r : Str) : Occurs phrase (line ++ r) := by
  obtain ⟨a, b, c, rfl, hf⟩ := h
  exact ⟨a, b, c ++ r, by simp, hf⟩

/-- C96 with the shipped configuration, also in the middle of a line: an error reported for the output so far is reported for the complete
output, except that VASP has not started, and that is never reported for the complete output only. -/
theorem C96_shipped (hist hist' : Bool) (p q : Str) (o o' : Object (List Char)) (h : init dotEngine (streamYml (List Char)) none hist none (some p) = .ok o)
    (h' : init dotEngine (streamYml (List Char)) none hist' none (some (p ++ q)) = .ok o') (name : Str) :
    (name ≠ c!"nostart" → (∃ t ∈ o.entries, t.shortname = name) → ∃ t ∈ o'.entries, t.shortname = name) ∧
    ((∃ t ∈ o'.entries, t.shortname = c!"nostart") → ∃ t ∈ o.entries, t.shortname = c!"nostart") := by
  obtain ⟨a, ha, hm⟩ := C84_shipped hist p
  obtain ⟨a', ha', hm'⟩ := C84_shipped hist' (p ++ q)
  rw [h] at ha
  rw [h'] at ha'
  cases Res.ok.inj ha
  cases Res.ok.inj ha'
  have up : ∀ phrase, (∃ l ∈ readlines p, Occurs phrase l) → ∃ l ∈ readlines (p ++ q), Occurs phrase l := by
    rintro phrase ⟨l, hl, ho⟩
    rcases readlines_append p q with ⟨_, e⟩ | ⟨A, l1, r, B, _, _, e1, e2⟩
    · exact ⟨l, by rw [e]; exact List.mem_append_left _ hl, ho⟩
    · rw [e1] at hl
      rcases List.mem_append.1 hl with hl | hl
      · exact ⟨l, by rw [e2]; exact List.mem_append_left _ hl, ho⟩
      · cases List.mem_singleton.1 hl
        exact ⟨l ++ r, by rw [e2]; simp, ho.append r⟩
  constructor
  · intro hne hex
    rw [hm] at hex
    rw [hm']
    rcases hex with ⟨phrase, h1, h2⟩ | ⟨h1, _⟩
    · exact .inl ⟨phrase, h1, up phrase h2⟩
    · exact absurd h1 hne
  · intro hex
    rw [hm'] at hex
    rw [hm]
    rcases hex with ⟨phrase, h1, _⟩ | ⟨_, h2⟩
    · exfalso
      revert h1
      have : ∀ x ∈ shipped, x.1 ≠ c!"nostart" := by decide +kernel
      exact fun h1 => this _ h1 rfl
    · refine .inr ⟨rfl, fun l hl ho => ?_⟩
      obtain ⟨l', hl', ho'⟩ := up _ ⟨l, hl, ho⟩
      exact h2 l' hl' ho'

/-- A run that starts and then fails: the report that it has not started disappears, the error appears. -/
example : ∃ o o', init dotEngine (streamYml (List Char)) none false none (some c!" running on 4 cores\n") = .ok o ∧
    init dotEngine (streamYml (List Char)) none false none (some (c!" running on 4 cores\n" ++ c!" vasp.6.2.0\n BRMIX: very serious problems\n")) = .ok o' ∧
    o.entries.map (·.shortname) = [c!"nostart"] ∧ o'.entries.map (·.shortname) = [c!"brmix"] :=
  ⟨_, _, rfl, rfl, by decide +kernel, by decide +kernel⟩

end Verif.Stream
