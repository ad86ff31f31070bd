import Verif.Props.StreamApi
/-! # History on and off (C135) -/
set_option autoImplicit false
namespace Verif.Stream
open Verif

variable {Rx : Type}

/-! ### Specification -/

/-- Of every short name the first record. -/
def firstRecords : List (Trigger Rx) → List (Trigger Rx)
  | [] => []
  | t :: ts => t :: (firstRecords ts).filter fun u => decide (u.shortname ≠ t.shortname)

/-! ### Proofs -/

theorem firstRecords_append (a b : List (Trigger Rx)) :
    firstRecords (a ++ b) = firstRecords a ++ (firstRecords b).filter fun u => decide (u.shortname ∉ a.map Trigger.shortname) := by
  induction a with
  | nil => simp [firstRecords]
  | cons t a ih =>
    rw [List.cons_append, firstRecords, firstRecords, ih, List.filter_append, List.filter_filter, List.cons_append]
    congr 2
    refine List.filter_congr fun u _ => ?_
    simp only [List.map_cons, List.mem_cons, not_or]
    by_cases h : u.shortname = t.shortname <;> simp [h]

theorem firstRecords_nodup (l : List (Trigger Rx)) (h : (l.map Trigger.shortname).Nodup) : firstRecords l = l := by
  induction l with
  | nil => rfl
  | cons t l ih =>
    rw [List.map_cons, List.nodup_cons] at h
    rw [firstRecords, ih h.2, List.filter_eq_self.2]
    intro u hu
    simp only [decide_eq_true_eq]
    intro he
    exact h.1 (he ▸ List.mem_map_of_mem hu)

theorem scan_firstRecords {E : Engine Rx} {fl : List ((Str × Nat) × Trigger Rx)} {s t : State Rx} {ls : List Str}
    (hn : (fl.map Prod.fst).Nodup) (hs : (((fl.map Prod.snd).filter fun t => !t.inverse).map Trigger.shortname).Nodup)
    (h1 : scan E true fl {} ls = .ok s) (h2 : scan E false fl {} ls = .ok t) : t.streams = firstRecords s.streams := by
  induction ls using List.reverseRecOn generalizing s t with
  | nil => cases h1; cases h2; rfl
  | append_singleton ls l ih =>
    obtain ⟨s1, a1, a2⟩ := scan_append h1
    obtain ⟨t1, b1, b2⟩ := scan_append h2
    obtain ⟨c1, _, _⟩ := line_ok hn a2
    obtain ⟨d1, _, _⟩ := line_ok hn b2
    obtain ⟨i1, _⟩ := scan_inverse hn a1
    obtain ⟨j1, _⟩ := scan_inverse hn b1
    have hold := scan_history hn a1
    rw [c1, d1, ih a1 b1, firstRecords_append]
    congr 1
    have hall : ∀ q : (Str × Nat) × Trigger Rx → Bool, ((((fl.filter q).filter fun p => !p.2.inverse).map Prod.snd).map Trigger.shortname).Nodup := by
      intro q
      refine List.Nodup.sublist ?_ hs
      refine List.Sublist.map _ ?_
      rw [List.filter_map]
      refine List.Sublist.map _ ?_
      have : (fun t : Trigger Rx => !t.inverse) ∘ Prod.snd = fun p : (Str × Nat) × Trigger Rx => !p.2.inverse := rfl
      rw [this]
      exact List.filter_sublist.filter _
    rw [firstRecords_nodup _ (hall _), List.filter_map, List.filter_filter, List.filter_filter, List.filter_filter]
    congr 1
    refine List.filter_congr fun p hp => ?_
    have hA : p.1 ∉ s1.ignore := by rw [i1 p hp]; simp
    have hB : p.1 ∈ t1.ignore ↔ ∃ y ∈ ls, Hits E p.2 y := by rw [j1 p hp]; simp
    cases hi : p.2.inverse with
    | true => simp [hi]
    | false =>
      have hC : p.2.shortname ∈ s1.streams.map Trigger.shortname ↔ ∃ y ∈ ls, Hits E p.2 y := by
        rw [hold]
        constructor
        · intro hm
          obtain ⟨u, hu, hue⟩ := List.mem_map.1 hm
          obtain ⟨y, hy, hu⟩ := List.mem_flatMap.1 hu
          obtain ⟨hu1, hu2⟩ := List.mem_filter.1 hu
          simp only [decide_eq_true_eq] at hu2
          have : u = p.2 := by
            refine List.inj_on_of_nodup_map hs ?_ ?_ hue
            · exact List.mem_filter.2 ⟨hu1, by simp [hu2.1]⟩
            · exact List.mem_filter.2 ⟨List.mem_map_of_mem hp, by simp [hi]⟩
          exact ⟨y, hy, this ▸ hu2.2⟩
        · rintro ⟨y, hy, hh⟩
          refine List.mem_map.2 ⟨p.2, List.mem_flatMap.2 ⟨y, hy, List.mem_filter.2 ⟨List.mem_map_of_mem hp, ?_⟩⟩, rfl⟩
          simp [hi, hh]
      simp only [hi, hA, hB, Function.comp, hC, not_false_eq_true, true_and, Bool.not_false, Bool.and_true, Bool.true_and]
      by_cases hx : ∃ y ∈ ls, Hits E p.2 y
      · simp [hx]
      · simp [hx]

/-- A trigger without a usable expression stops the first line. -/
theorem line_stops {E : Engine Rx} {hist : Bool} {l : Str} {fl : List ((Str × Nat) × Trigger Rx)} {st : State Rx}
    (hn : (fl.map Prod.fst).Nodup) (hi : ∀ p ∈ fl, p.1 ∉ st.ignore) (hr : ∃ p ∈ fl, p.2.regex = none) :
    Res.foldlM' (checkOne E hist l) st fl = .raise .attributeError := by
  induction fl generalizing st with
  | nil => obtain ⟨p, hp, _⟩ := hr; cases hp
  | cons p ps ih =>
    rw [List.map_cons, List.nodup_cons] at hn
    unfold Res.foldlM'
    have hp := hi p (by simp)
    unfold checkOne
    rw [if_neg hp]
    unfold checkLine
    cases hrx : p.2.regex with
    | none => rfl
    | some r =>
      have hr' : ∃ p ∈ ps, p.2.regex = none := by
        obtain ⟨q, hq, hqr⟩ := hr
        rcases List.mem_cons.1 hq with rfl | hq
        · rw [hrx] at hqr; cases hqr
        · exact ⟨q, hq, hqr⟩
      simp only [Res.ok_bind]
      cases E.search r l with
      | false => exact ih hn.2 (fun q hq => hi q (by simp [hq])) hr'
      | true =>
        refine ih hn.2 (fun q hq => ?_) hr'
        have h1 := hi q (by simp [hq])
        cases hist with
        | true => simpa using h1
        | false =>
          simp only [Bool.false_eq_true, if_false, List.mem_append, List.mem_singleton, not_or]
          refine ⟨h1, ?_⟩
          intro he
          exact hn.1 (he ▸ List.mem_map_of_mem hq)

/-- Both modes get through the same texts. -/
theorem scan_both {E : Engine Rx} {fl : List ((Str × Nat) × Trigger Rx)} (hn : (fl.map Prod.fst).Nodup) (ls : List Str) :
    (∃ s t, scan E true fl {} ls = .ok s ∧ scan E false fl {} ls = .ok t) ∨
    ∃ e, scan E true fl {} ls = .raise e ∧ scan E false fl {} ls = .raise e := by
  by_cases hr : ∃ p ∈ fl, p.2.regex = none
  · cases ls with
    | nil => exact .inl ⟨_, _, rfl, rfl⟩
    | cons l ls =>
      refine .inr ⟨.attributeError, ?_, ?_⟩
      · unfold scan Res.foldlM'; rw [line_stops hn (by simp) hr]
      · unfold scan Res.foldlM'; rw [line_stops hn (by simp) hr]
  · have hfl : ∀ p ∈ fl, p.2.regex.isSome = true := by
      intro p hp
      cases h : p.2.regex with
      | none => exact absurd ⟨p, hp, h⟩ hr
      | some _ => rfl
    obtain ⟨s, hs⟩ := scan_total (E := E) (hist := true) hfl {} ls
    obtain ⟨t, ht⟩ := scan_total (E := E) (hist := false) hfl {} ls
    exact .inl ⟨s, t, hs, ht⟩

/-- `r'` is `r` with only the first records. -/
def Off (r r' : Res (Object Rx)) : Prop :=
  match r with
  | .ok o => r' = .ok { o with entries := firstRecords o.entries }
  | .exit n => r' = .exit n
  | .raise e => r' = .raise e

theorem off_bind {α : Type} {x : Res α} {f g : α → Res (Object Rx)} (h : ∀ a, x = .ok a → Off (f a) (g a)) : Off (x >>= f) (x >>= g) := by
  cases x with
  | ok a => exact h a rfl
  | exit n => exact rfl
  | raise e => exact rfl

/-- C135: whatever the configuration and the file, a `Stream` without history is that with history, with only the first record of every
stream kept, in the same order; what cannot be read with history cannot be read without, with the same error. -/
theorem C135_off (E : Engine Rx) (dflt : Config Rx) (user : Option (Config Rx)) (path : Option (Option Str)) (handler : Option Str)
    (hd : dflt.keys.Nodup) :
    match (generalizing := false) init E dflt user true path handler with
    | .ok o => init E dflt user false path handler = .ok { o with entries := firstRecords o.entries }
    | .exit n => init E dflt user false path handler = .exit n
    | .raise e => init E dflt user false path handler = .raise e := by
  show Off (init E dflt user true path handler) (init E dflt user false path handler)
  unfold init
  by_cases hnone : path.isNone = true ∧ handler.isNone = true
  · rw [if_pos hnone, if_pos hnone]; exact rfl
  rw [if_neg hnone, if_neg hnone]
  refine off_bind fun kinds h1 => off_bind fun tt h2 => off_bind fun lines _ => ?_
  have h1 : setStreams [] (effective dflt user) = .ok kinds := h1
  have h2 : build E kinds (effective dflt user) = .ok tt := h2
  dsimp only
  have P := build_prepared (effective_nodup dflt user hd) h1 h2
  have hids := flat_ids _ P.keys
  have hsn := P.normalNames
  rw [← flat_snd] at hsn
  rcases scan_both (E := E) hids lines with ⟨s, t, hs, ht⟩ | ⟨e, hs, ht⟩
  · rw [hs, ht]
    simp only [Res.ok_bind]
    congr 2
    have hst := scan_firstRecords hids hsn hs ht
    have hinv : ∀ x, x ∈ s.inverse ↔ x ∈ t.inverse := by
      intro x; rw [(scan_inverse hids hs).2 x, (scan_inverse hids ht).2 x]
    have hund : undetected tt.2 s.inverse = undetected tt.2 t.inverse := by
      unfold undetected
      refine List.filter_congr fun u _ => ?_
      rw [decide_eq_decide, hinv]
    rw [firstRecords_append, ← hst, ← hund]
    congr 1
    have hnd : ((undetected tt.2 s.inverse).map Trigger.shortname).Nodup := (List.filter_sublist.map _).nodup P.inverseNames
    rw [firstRecords_nodup _ hnd, List.filter_eq_self.2]
    intro u hu
    simp only [decide_eq_true_eq]
    intro hm
    obtain ⟨w, hw, hwe⟩ := List.mem_map.1 hm
    rw [scan_history hids hs] at hw
    obtain ⟨y, hy, hw⟩ := List.mem_flatMap.1 hw
    obtain ⟨hw1, hw2⟩ := List.mem_filter.1 hw
    simp only [decide_eq_true_eq] at hw2
    rw [flat_snd] at hw1
    have huu := (P.inverseMem u).1 (List.mem_filter.1 hu).1
    have := P.unique w hw1 u huu.1 hwe
    subst this
    rw [huu.2] at hw2
    exact absurd hw2.1 (by simp)
  · rw [hs, ht]; exact rfl

/-- C135: with history the number of entries is the number of finds, over all lines and all streams that are not inverse, and one for every
inverse stream found in no line. -/
theorem C135_number (E : Engine Rx) (dflt : Config Rx) (user : Option (Config Rx)) (path : Option (Option Str))
    (handler : Option Str) (o : Object Rx) (hd : dflt.keys.Nodup) (h : init E dflt user true path handler = .ok o) :
    ∃ text, textOf path handler = some text ∧ ∀ silent : List (Trigger Rx), (silent.map Trigger.shortname).Nodup →
      (∀ t, t ∈ silent ↔ t ∈ o.triggers ∧ t.inverse = true ∧ ∀ l ∈ readlines text, ¬ Hits E t l) →
      numberOfEntries o = ((readlines text).map fun l => o.triggers.countP fun t => decide (t.inverse = false ∧ Hits E t l)).sum + silent.length := by
  obtain ⟨text, kinds, tt, st, ht, h1, h2, h3, rfl⟩ := init_ok h
  refine ⟨text, ht, fun silent hsn hs => ?_⟩
  have P := build_prepared (effective_nodup dflt user hd) h1 h2
  have hids := flat_ids _ P.keys
  have hst := scan_history hids h3
  rw [flat_snd] at hst
  show (st.streams ++ undetected tt.2 st.inverse).length = _
  rw [List.length_append, hst, List.length_flatMap]
  congr 1
  · congr 1
    refine List.map_congr_left fun l _ => ?_
    rw [List.countP_eq_length_filter]; rfl
  · have hnd : ((undetected tt.2 st.inverse).map Trigger.shortname).Nodup := (List.filter_sublist.map _).nodup P.inverseNames
    have hperm : (undetected tt.2 st.inverse).Perm silent := by
      rw [List.perm_ext_iff_of_nodup hnd.of_map hsn.of_map]
      intro t
      rw [hs]
      show _ ↔ t ∈ (extend kinds tt.1 tt.2).flatMap Prod.snd ∧ _
      unfold undetected
      rw [List.mem_filter, P.inverseMem, decide_eq_true_eq, (scan_inverse hids h3).2]
      constructor
      · rintro ⟨⟨a, b⟩, c⟩
        refine ⟨a, b, fun l hl hh => c ?_⟩
        rw [← flat_snd] at a
        obtain ⟨p, hp, rfl⟩ := List.mem_map.1 a
        exact ⟨p, hp, b, rfl, l, hl, hh⟩
      · rintro ⟨a, b, c⟩
        refine ⟨⟨a, b⟩, ?_⟩
        rintro ⟨p, hp, hpi, hps, l, hl, hh⟩
        have hpm : p.2 ∈ (extend kinds tt.1 tt.2).flatMap Prod.snd := by rw [← flat_snd]; exact List.mem_map_of_mem hp
        have := P.unique _ hpm _ a hps
        exact c l hl (this ▸ hh)
    exact hperm.length_eq

/-- Non-vacuity: one stream in two lines. -/
example : ∃ o, init plain [(c!"brmix", [(c!"kind", .str c!"ERROR"), (c!"regex", .str c!"BRMIX"), (c!"message", .str c!"mixing")])]
      none true none (some c!"BRMIX\nBRMIX\n") = .ok o ∧ numberOfEntries o = 2 ∧ (firstRecords o.entries).length = 1 :=
  ⟨_, rfl, by decide +kernel, by decide +kernel⟩

end Verif.Stream
