import Verif.Model.Files
import Verif.Props.Base
import Verif.Props.IncarWrite
import Verif.Props.KpointsRound
import Verif.Props.PoscarRound
/-! # C87, C88: what `write()` does to the disk, at every crash point; files read back; the file checks -/
set_option autoImplicit false
namespace Verif.Files
open Verif Verif.Base

theorem set_same (d : Disk) (p t : Str) : d.set p t p = some (.file t) := by simp [Disk.set]
theorem set_other (d : Disk) {p q : Str} (t : Str) (h : q ≠ p) : d.set p t q = d q := by simp [Disk.set, h]
theorem set_set (d : Disk) (p s t : Str) : (d.set p s).set p t = d.set p t := by
  funext q; by_cases h : q = p <;> simp [Disk.set, h]
theorem read_set (d : Disk) (p t : Str) : (d.set p t).read p = some t := by simp [Disk.read, set_same]

/-- What holds after the operations done so far on the opened path: `t` is the text given to the file. -/
structure Mid (d : Disk) (p : Str) (w : World) (t : Str) : Prop where
  ex : ∃ c buf, w.disk = d.set p c ∧ w.handle = some (p, buf) ∧ c ++ buf = t

theorem Mid.flush {d : Disk} {p : Str} {w w' : World} {t : Str} (h : Mid d p w t) (hf : Flush w w') : Mid d p w' t := by
  obtain ⟨c, buf, h1, h2, h3⟩ := h.ex
  cases hf with
  | part p' a b c' hh hd =>
    rw [h2] at hh
    obtain ⟨rfl, rfl⟩ := Prod.mk.inj (Option.some.inj hh)
    rw [h1, set_same] at hd
    obtain rfl := Node.file.inj (Option.some.inj hd)
    exact ⟨⟨c ++ a, b, by simp [h1, set_set], rfl, by simp [← h3]⟩⟩

/-- The run of `open`, a number of writes, a crash anywhere. -/
theorem run_open {d : Disk} {p : Str} {w : World} {ev : List Event} (h : Run (.before d) ev w) :
    (ev = [] → w = .before d) ∧
    ∀ ps : List Str, ev = .open p :: ps.map (Event.write (.file p)) → Mid d p w ps.flatten := by
  induction h with
  | start => exact ⟨fun _ => rfl, fun ps h => by cases h⟩
  | flush h hf ih =>
    obtain ⟨h1, h2⟩ := ih
    refine ⟨fun he => ?_, fun ps he => (h2 ps he).flush hf⟩
    have := h1 he
    subst this
    cases hf with
    | part p' a b c hh hd => simp [World.before] at hh
  | @step w' w'' ev e h hs ih =>
    obtain ⟨h1, h2⟩ := ih
    refine ⟨fun he => by simp at he, fun ps he => ?_⟩
    rcases List.eq_nil_or_concat ps with rfl | ⟨ps', s, rfl⟩
    · have hev : ev = [] ∧ e = .open p := by
        cases ev with
        | nil => simpa using he
        | cons a l => simp at he
      obtain ⟨rfl, rfl⟩ := hev
      have := h1 rfl
      subst this
      cases hs with
      | openFile => exact ⟨⟨[], [], rfl, rfl, rfl⟩⟩
    · have he' : ev ++ [e] = (.open p :: ps'.map (Event.write (.file p))) ++ [.write (.file p) s] := by simpa using he
      obtain ⟨rfl, he2⟩ := List.append_inj' he' rfl
      obtain rfl : e = .write (.file p) s := by simpa using he2
      obtain ⟨c, buf, k1, k2, k3⟩ := (h2 ps' rfl).ex
      cases hs with
      | writeFile p' buf' s' hh =>
        rw [k2] at hh
        obtain ⟨-, rfl⟩ := Prod.mk.inj (Option.some.inj hh)
        exact ⟨⟨c, buf ++ s, k1, rfl, by simp [← k3]⟩⟩

/-- The run up to and including the cut of the last character. -/
theorem run_chop {d : Disk} {p : Str} {w : World} {ps : List Str}
    (h : Run (.before d) (.open p :: ps.map (Event.write (.file p)) ++ [.chop (.file p)]) w) : Mid d p w ps.flatten.dropLast := by
  generalize he : (.open p :: ps.map (Event.write (.file p)) ++ [.chop (.file p)]) = ev at h
  induction h with
  | start => simp at he
  | flush h hf ih => exact (ih he).flush hf
  | @step w' w'' ev e h hs ih =>
    obtain ⟨rfl, he2⟩ := List.append_inj' he rfl
    obtain rfl : Event.chop (.file p) = e := by simpa using he2
    obtain ⟨c, buf, k1, k2, k3⟩ := ((run_open h).2 ps rfl).ex
    cases hs with
    | chopFile p' buf' c' hh hd =>
      rw [k2] at hh
      obtain ⟨-, rfl⟩ := Prod.mk.inj (Option.some.inj hh)
      rw [k1, set_same] at hd
      obtain rfl := Node.file.inj (Option.some.inj hd)
      exact ⟨⟨(c ++ buf).dropLast, [], by simp [k1, set_set], rfl, by rw [k3]; simp⟩⟩

/-- The run to the end, the file closed. -/
theorem run_close {d : Disk} {p t : Str} {w : World} {ev : List Event}
    (hm : ∀ w, Run (.before d) ev w → Mid d p w t)
    (h : Run (.before d) (ev ++ [.close (.file p)]) w) : w.disk = d.set p t ∧ w.handle = none := by
  generalize he : ev ++ [.close (.file p)] = ev' at h
  induction h with
  | start => simp at he
  | flush h hf ih =>
    obtain ⟨h1, h2⟩ := ih he
    cases hf with
    | part p' a b c hh hd => rw [h2] at hh; cases hh
  | @step w' w'' ev e h hs ih =>
    obtain ⟨rfl, he2⟩ := List.append_inj' he rfl
    obtain rfl : Event.close (.file p) = e := by simpa using he2
    obtain ⟨c, buf, k1, k2, k3⟩ := (hm _ h).ex
    cases hs with
    | closeFile p' buf' c' hh hd =>
      rw [k2] at hh
      obtain ⟨-, rfl⟩ := Prod.mk.inj (Option.some.inj hh)
      rw [k1, set_same] at hd
      obtain rfl := Node.file.inj (Option.some.inj hd)
      exact ⟨by simp [k1, set_set, k3], rfl⟩

/-- A run of operations on the caller's handler leaves the disk alone. -/
theorem run_handler {d : Disk} {w : World} {ev : List Event} (h : Run (.before d) ev w)
    (he : ∀ e ∈ ev, e = .chop .handler ∨ ∃ s, e = .write .handler s) : w.disk = d ∧ w.handle = none := by
  induction h with
  | start => exact ⟨rfl, rfl⟩
  | flush h hf ih =>
    obtain ⟨h1, h2⟩ := ih he
    cases hf with
    | part p' a b c hh hd => rw [h2] at hh; cases hh
  | @step w' w'' ev e h hs ih =>
    obtain ⟨h1, h2⟩ := ih (fun e h => he e (by simp [h]))
    rcases he e (by simp) with rfl | ⟨s, rfl⟩ <;> cases hs <;> exact ⟨h1, h2⟩

/-- The text the caller's handler receives. -/
theorem run_sink {d : Disk} {w : World} {ev : List Event} (h : Run (.before d) ev w) :
    ∀ ps : List Str, ev = ps.map (Event.write .handler) → w.sink = ps.flatten := by
  induction h with
  | start => intro ps h; cases ps <;> simp_all [World.before]
  | flush h hf ih =>
    intro ps he
    have := ih ps he
    cases hf
    exact this
  | @step w' w'' ev e h hs ih =>
    intro ps he
    rcases List.eq_nil_or_concat ps with rfl | ⟨ps', s, rfl⟩
    · simp at he
    · have he' : ev ++ [e] = ps'.map (Event.write .handler) ++ [.write .handler s] := by simpa using he
      obtain ⟨rfl, he2⟩ := List.append_inj' he' rfl
      obtain rfl : e = .write .handler s := by simpa using he2
      have := ih ps' rfl
      cases hs
      simp [this]

/-- The same when the last character is cut off at the end. -/
theorem run_sink_chop {d : Disk} {w : World} {ps : List Str}
    (h : Run (.before d) (ps.map (Event.write .handler) ++ [.chop .handler]) w) : w.sink = ps.flatten.dropLast := by
  generalize he : ps.map (Event.write .handler) ++ [.chop .handler] = ev at h
  induction h with
  | start => simp at he
  | flush h hf ih =>
    have := ih he
    cases hf
    exact this
  | @step w' w'' ev e h hs ih =>
    obtain ⟨rfl, he2⟩ := List.append_inj' he rfl
    obtain rfl : Event.chop .handler = e := by simpa using he2
    have := run_sink h ps rfl
    cases hs
    simp [this]

/-! ### the operations of a call -/

theorem call_path {perm : Str → Bool} {d : Disk} {w : Writer} {p : Str} (ho : canOpen perm d p = true) :
    (call perm d w { path := some (some p) }).1 =
      (.open p :: w.pieces.map (Event.write (.file p)) ++ (if w.chop && w.result.isOk then [.chop (.file p)] else [])) ++
        (if w.result.isOk then [.close (.file p)] else []) ∧
    (call perm d w { path := some (some p) }).2 = w.result := by
  obtain ⟨ps, r, ch⟩ := w
  cases r <;> cases ch <;> simp [call, write, openFile, ho, runWriter, Res.isOk]

/-- Every crash point of a call on a path that opens. -/
theorem crash_path {perm : Str → Bool} {d d' : Disk} {w : Writer} {p : Str} (ho : canOpen perm d p = true)
    (h : Crash perm d w { path := some (some p) } d') :
    d' = d ∨ ∃ t, t <+: w.pieces.flatten ∧ d' = d.set p t := by
  obtain ⟨done, rest, s, h1, h2, rfl⟩ := h
  rw [(call_path ho).1] at h1
  have mid : ∀ {t}, Mid d p s t → t <+: w.pieces.flatten → ∃ t, t <+: w.pieces.flatten ∧ s.disk = d.set p t := by
    intro t hm ht
    obtain ⟨c, buf, k1, k2, k3⟩ := hm.ex
    exact ⟨c, (k3 ▸ List.prefix_append c buf).trans ht, k1⟩
  -- where the run stopped
  have hp : done <+: (.open p :: w.pieces.map (Event.write (.file p)) ++ (if w.chop && w.result.isOk then [.chop (.file p)] else [])) ++
        (if w.result.isOk then [.close (.file p)] else []) := ⟨rest, h1.symm⟩
  have pre : done <+: (.open p :: w.pieces.map (Event.write (.file p))) → s.disk = d ∨ ∃ t, t <+: w.pieces.flatten ∧ s.disk = d.set p t := by
    intro hq
    cases done with
    | nil => left; rw [(run_open (p := p) h2).1 rfl]; rfl
    | cons e l =>
      right
      obtain ⟨rfl, hl⟩ := List.cons_prefix_cons.1 hq
      obtain ⟨k, rfl⟩ : ∃ k, l = (w.pieces.take k).map (Event.write (.file p)) := by
        obtain ⟨r, hr⟩ := hl
        exact ⟨l.length, by rw [List.map_take, ← hr]; simp⟩
      refine mid ((run_open h2).2 _ rfl) ?_
      conv => rhs; rw [← List.take_append_drop k w.pieces, List.flatten_append]
      exact List.prefix_append _ _
  have chopT : w.pieces.flatten.dropLast <+: w.pieces.flatten := List.dropLast_prefix _
  have closed : ∀ {ev t}, (∀ w, Run (.before d) ev w → Mid d p w t) → done = ev ++ [.close (.file p)] → t <+: w.pieces.flatten →
      s.disk = d ∨ ∃ t, t <+: w.pieces.flatten ∧ s.disk = d.set p t := by
    intro ev t hm hd ht
    subst hd
    exact .inr ⟨t, ht, (run_close hm h2).1⟩
  have chopped : done = .open p :: w.pieces.map (Event.write (.file p)) ++ [.chop (.file p)] →
      s.disk = d ∨ ∃ t, t <+: w.pieces.flatten ∧ s.disk = d.set p t := by
    intro hd; subst hd
    exact .inr (mid (run_chop h2) chopT)
  cases hok : w.result.isOk
  · simp only [hok, Bool.and_false, Bool.false_eq_true, if_false, List.append_nil] at hp
    exact pre hp
  · cases hch : w.chop
    · simp only [hok, hch, Bool.false_and, Bool.false_eq_true, if_false, List.append_nil, if_true] at hp
      rcases List.prefix_concat_iff.1 hp with hq | hq
      · exact closed (fun w h => (run_open h).2 _ rfl) hq (List.prefix_refl _)
      · exact pre hq
    · simp only [hok, hch, Bool.true_and, if_true] at hp
      rcases List.prefix_concat_iff.1 hp with hq | hq
      · exact closed (fun w h => run_chop h) hq chopT
      · rcases List.prefix_concat_iff.1 hq with hq | hq
        · exact chopped hq
        · exact pre hq

/-- The end of a call on a path that opens, if the writer returns. -/
theorem end_path {perm : Str → Bool} {d : Disk} {w : Writer} {p : Str} {s : World} (ho : canOpen perm d p = true)
    (hr : w.result = .ok ()) (h : Run (.before d) (call perm d w { path := some (some p) }).1 s) :
    s.disk = d.set p (if w.chop then w.pieces.flatten.dropLast else w.pieces.flatten) ∧ s.handle = none := by
  rw [(call_path ho).1, hr] at h
  cases hch : w.chop
  · simp only [hch, Res.isOk, Bool.false_and, Bool.false_eq_true, if_false, List.append_nil, if_true] at h ⊢
    exact run_close (fun w h => (run_open h).2 _ rfl) h
  · simp only [hch, Res.isOk, Bool.true_and, if_true] at h ⊢
    exact run_close (fun w h => run_chop h) h

/-- A run of the given operations exists (nothing is flushed before the end). -/
theorem exists_run (d : Disk) (p : Str) (ps : List Str) :
    Run (.before d) (.open p :: ps.map (Event.write (.file p))) ⟨d.set p [], some (p, ps.flatten), []⟩ := by
  induction ps using List.reverseRecOn with
  | nil => exact Run.step (ev := []) (Run.start _) (Step.openFile _ p)
  | append_singleton ps s ih =>
    have := Run.step ih (Step.writeFile _ p ps.flatten s rfl)
    simpa using this

/-! ### C87: what `write()` does to the disk -/

/-- The path a call names, if it names one and nothing else. -/
def Names (a : Args) (p : Str) : Prop := a.path = some (some p) ∧ a.handler = none

/-- The text a writer means to produce. -/
def Text (w : Writer) : Str := if w.chop then w.pieces.flatten.dropLast else w.pieces.flatten

theorem call_cases (perm : Str → Bool) (d : Disk) (w : Writer) (a : Args) :
    (∃ p, Names a p ∧ canOpen perm d p = true ∧ a = { path := some (some p) }) ∨
    (∃ p, Names a p ∧ canOpen perm d p = false ∧ call perm d w a = ([], .exit 14)) ∨
    ((∀ p, ¬ Names a p) ∧ ∀ e ∈ (call perm d w a).1, e = .chop .handler ∨ ∃ s, e = .write .handler s) := by
  obtain ⟨pa, ha⟩ := a
  have third : (∀ p, ¬ Names ⟨pa, ha⟩ p) →
      ((∀ p, ¬ Names ⟨pa, ha⟩ p) ∧ ∀ e ∈ (call perm d w ⟨pa, ha⟩).1, e = .chop .handler ∨ ∃ s, e = .write .handler s) := by
    intro h
    refine ⟨h, fun e he => ?_⟩
    rcases C46_only_target _ _ _ e he with ⟨p, h1, h2, -⟩ | ⟨-, -, ⟨s, -, h⟩ | h⟩
    · exact absurd ⟨h1, h2⟩ (h p)
    · exact .inr ⟨s, h⟩
    · exact .inl h
  rcases pa with _ | (_ | p)
  · exact .inr (.inr (third fun p h => by simp [Names] at h))
  · exact .inr (.inr (third fun p h => by simp [Names] at h))
  · rcases ha with _ | b
    · cases ho : canOpen perm d p
      · exact .inr (.inl ⟨p, ⟨rfl, rfl⟩, ho, C46_path_unopenable _ _ _ ho⟩)
      · exact .inl ⟨p, ⟨rfl, rfl⟩, ho, rfl⟩
    · exact .inr (.inr (third fun q h => by simp [Names] at h))

theorem run_nil {d : Disk} {s : World} (h : Run (.before d) [] s) : s = .before d := (run_open (p := []) h).1 rfl

/-- C87 (partial), all crash points: whatever the class, the contents and the arguments, a `write()` call killed at any point
leaves every path as it was, except that a path given to the call and openable may hold a beginning of the text written. Missing: that the old contents survive a crash, which is false (`C87_violation_*`). -/
theorem C87_crash_partial (perm : Str → Bool) (d d' : Disk) (w : Writer) (a : Args) (h : Crash perm d w a d') (q : Str) :
    d' q = d q ∨ (Names a q ∧ canOpen perm d q = true ∧ ∃ t, t <+: w.pieces.flatten ∧ d' q = some (.file t)) := by
  rcases call_cases perm d w a with ⟨p, hn, ho, rfl⟩ | ⟨p, hn, ho, hc⟩ | ⟨hn, hc⟩
  · rcases crash_path ho h with rfl | ⟨t, ht, rfl⟩
    · exact .inl rfl
    · by_cases hq : q = p
      · subst hq; exact .inr ⟨hn, ho, t, ht, set_same d q t⟩
      · exact .inl (set_other d t hq)
  · obtain ⟨done, rest, s, h1, h2, rfl⟩ := h
    rw [hc] at h1
    obtain ⟨rfl, -⟩ := List.append_eq_nil_iff.1 h1.symm
    rw [run_nil h2]; exact .inl rfl
  · obtain ⟨done, rest, s, h1, h2, rfl⟩ := h
    have := run_handler h2 (fun e he => hc e (by rw [h1]; simp [he]))
    rw [this.1]; exact .inl rfl

/-- C87, normal return: the file named holds exactly the text, and no other path changed; the file is closed. A handler given
instead received exactly the text and the disk did not change. -/
theorem C87_success (perm : Str → Bool) (d d' : Disk) (w : Writer) (p : Str) (sink : Str) :
    (Ends perm d w { path := some (some p) } (.ok ()) d' sink → d'.read p = some (Text w) ∧ ∀ q, q ≠ p → d' q = d q) ∧
    (Ends perm d w { handler := some true } (.ok ()) d' sink → d' = d ∧ sink = Text w) := by
  constructor
  · rintro ⟨s, hr, h, rfl, -⟩
    cases ho : canOpen perm d p with
    | false =>
      have := C46_path_unopenable (canOpen perm d) w p ho
      unfold call at hr; rw [this] at hr; cases hr
    | true =>
      rw [(call_path ho).2] at hr
      rw [(end_path ho hr h).1]
      exact ⟨read_set _ _ _, fun q hq => set_other d _ hq⟩
  · rintro ⟨s, hr, h, rfl, rfl⟩
    have hc := C46_handler (canOpen perm d) w
    unfold call at hr h
    rw [hc] at hr h
    refine ⟨(run_handler h ?_).1, ?_⟩
    · intro e he
      simp only [List.mem_append, List.mem_map] at he
      rcases he with ⟨s, -, rfl⟩ | he
      · exact .inr ⟨s, rfl⟩
      · split at he
        · exact .inl (by simpa using he)
        · simp at he
    · dsimp only at hr
      unfold Text
      simp only [hr, Res.isOk, Bool.and_true] at h
      cases hch : w.chop
      · simp only [hch, Bool.false_eq_true, if_false, List.append_nil] at h ⊢
        exact run_sink h _ rfl
      · simp only [hch, if_true] at h ⊢
        exact run_sink_chop h

/-- C87: a call without exactly one target exits 10, one with a path that cannot be opened exits 14; both leave the disk and
the handler as they were. -/
theorem C87_refused (perm : Str → Bool) (d d' : Disk) (w : Writer) (a : Args) (r : Res Unit) (sink : Str)
    (h : Ends perm d w a r d' sink) (hw : ∀ c, w.result ≠ .exit c) (c : Nat) (hr : r = .exit c) :
    (c = 10 ∨ c = 14) ∧ d' = d ∧ sink = [] := by
  obtain ⟨s, h1, h2, rfl, rfl⟩ := h
  have key : call perm d w a = ([], .exit 10) ∨ call perm d w a = ([], .exit 14) ∨ (call perm d w a).2 = w.result ∨
      (call perm d w a).2 = .raise .attributeError := by
    obtain ⟨pa, ha⟩ := a
    by_cases hs : pa.isSome = ha.isSome
    · exact .inl (C46_one_target _ _ _ hs)
    · rcases pa with _ | (_ | p) <;> rcases ha with _ | b <;> simp at hs
      · cases b
        · cases hp : w.pieces <;> simp [call, write, runWriter, hp]
        · exact .inr (.inr (.inl (by unfold call; rw [C46_handler])))
      · cases hp : w.pieces <;> simp [call, write, runWriter, hp]
      · cases ho : canOpen perm d p
        · exact .inr (.inl (C46_path_unopenable _ _ _ ho))
        · exact .inr (.inr (.inl (call_path ho).2))
  rcases key with k | k | k | k
  · rw [k] at h1 h2
    rw [hr] at h1
    cases h1
    rw [run_nil h2]; exact ⟨.inl rfl, rfl, rfl⟩
  · rw [k] at h1 h2
    rw [hr] at h1
    cases h1
    rw [run_nil h2]; exact ⟨.inr rfl, rfl, rfl⟩
  · rw [h1, hr] at k; exact absurd k.symm (hw c)
  · rw [h1, hr] at k; cases k

/-- A history of programs: `write()` calls that ended somehow, and calls during which the program was killed. -/
inductive History (perm : Str → Bool) : Disk → List (Writer × Args × Option (Res Unit)) → Disk → Prop
  | start (d : Disk) : History perm d [] d
  | ended {d d' d'' : Disk} {l : List (Writer × Args × Option (Res Unit))} {w : Writer} {a : Args} {r : Res Unit} {sink : Str} :
      History perm d l d' → Ends perm d' w a r d'' sink → History perm d (l ++ [(w, a, some r)]) d''
  | killed {d d' d'' : Disk} {l : List (Writer × Args × Option (Res Unit))} {w : Writer} {a : Args} :
      History perm d l d' → Crash perm d' w a d'' → History perm d (l ++ [(w, a, none)]) d''

theorem ends_crash {perm : Str → Bool} {d d' : Disk} {w : Writer} {a : Args} {r : Res Unit} {sink : Str}
    (h : Ends perm d w a r d' sink) : Crash perm d w a d' := by
  obtain ⟨s, -, h2, rfl, -⟩ := h
  exact ⟨_, [], s, (List.append_nil _).symm, h2, rfl⟩

/-- C87 over every history of calls, failures and crashes: a path no call named is as it was at the start; the rest of the
history after the last call naming a path does not touch it, and if that call returned, the path holds exactly its text. -/
theorem C87_history {perm : Str → Bool} {d d' : Disk} {l : List (Writer × Args × Option (Res Unit))} (h : History perm d l d')
    (q : Str) :
    ((∀ c ∈ l, ¬ Names c.2.1 q) → d' q = d q) ∧
    ∀ pre w post, l = pre ++ (w, { path := some (some q) }, some (.ok ())) :: post → (∀ c ∈ post, ¬ Names c.2.1 q) →
      d'.read q = some (Text w) := by
  have step : ∀ {d' d'' : Disk} {l : List (Writer × Args × Option (Res Unit))} {w : Writer} {a : Args} {o : Option (Res Unit)},
      Crash perm d' w a d'' →
      (∀ sink, o = some (.ok ()) → a = { path := some (some q) } → Ends perm d' w a (.ok ()) d'' sink → d''.read q = some (Text w)) →
      (o = some (.ok ()) → ∃ sink, Ends perm d' w a (.ok ()) d'' sink) →
      (((∀ c ∈ l, ¬ Names c.2.1 q) → d' q = d q) ∧
        ∀ pre w post, l = pre ++ (w, { path := some (some q) }, some (.ok ())) :: post → (∀ c ∈ post, ¬ Names c.2.1 q) →
          d'.read q = some (Text w)) →
      (((∀ c ∈ l ++ [(w, a, o)], ¬ Names c.2.1 q) → d'' q = d q) ∧
        ∀ pre w' post, l ++ [(w, a, o)] = pre ++ (w', { path := some (some q) }, some (.ok ())) :: post →
          (∀ c ∈ post, ¬ Names c.2.1 q) → d''.read q = some (Text w')) := by
    intro d' d'' l w a o hc hend hex ih
    have keep : ¬ Names a q → d'' q = d' q := by
      intro hn
      rcases C87_crash_partial perm d' d'' w a hc q with h | ⟨h, -⟩
      · exact h
      · exact absurd h hn
    constructor
    · intro hn
      rw [keep (hn (w, a, o) (by simp)), ih.1 fun c hc => hn c (by simp [hc])]
    · intro pre w' post he hp
      rcases List.eq_nil_or_concat post with rfl | ⟨post', x, rfl⟩
      · obtain ⟨-, h2⟩ := List.append_inj' he rfl
        simp only [List.cons.injEq, Prod.mk.injEq, and_true] at h2
        obtain ⟨rfl, rfl, rfl⟩ := h2
        obtain ⟨sink, hs⟩ := hex rfl
        exact hend sink rfl rfl hs
      · have he' : l ++ [(w, a, o)] = (pre ++ (w', { path := some (some q) }, some (.ok ())) :: post') ++ [x] := by simpa using he
        obtain ⟨h1, h2⟩ := List.append_inj' he' rfl
        obtain rfl : (w, a, o) = x := by simpa using h2
        have := ih.2 pre w' post' h1 (fun c hc => hp c (by simp [hc]))
        unfold Disk.read at this ⊢
        rw [keep (hp (w, a, o) (by simp))]
        exact this
  induction h with
  | start => exact ⟨fun _ => rfl, fun pre w post h => by simp at h⟩
  | ended h he ih =>
    refine step (ends_crash he) ?_ ?_ ih
    · rintro sink h1 rfl hs
      exact ((C87_success perm _ _ _ q sink).1 hs).1
    · rintro h
      cases h
      exact ⟨_, he⟩
  | killed h hc ih => exact step hc (by rintro _ h; cases h) (by rintro h; cases h) ih

/-- Every call ends in some way, so the theorems about ended calls speak of something: a call that opens its path can run to
the end. -/
theorem C87_ends (perm : Str → Bool) (d : Disk) (w : Writer) (p : Str) (ho : canOpen perm d p = true) :
    ∃ d', Ends perm d w { path := some (some p) } w.result d' [] := by
  have h1 := (call_path (w := w) ho).1
  have h2 := (call_path (w := w) ho).2
  have hrun := exists_run d p w.pieces
  cases hok : w.result.isOk
  · simp only [hok, Bool.and_false, Bool.false_eq_true, if_false, List.append_nil] at h1
    exact ⟨_, _, h2, by rw [h1]; exact hrun, rfl, rfl⟩
  · cases hch : w.chop
    · simp only [hok, hch, Bool.false_and, Bool.false_eq_true, if_false, List.append_nil, if_true] at h1
      have := Run.step hrun (Step.closeFile _ p w.pieces.flatten [] rfl (set_same d p []))
      exact ⟨_, _, h2, by rw [h1]; exact this, rfl, rfl⟩
    · simp only [hok, hch, Bool.true_and, if_true] at h1
      have h3 := Run.step hrun (Step.chopFile _ p w.pieces.flatten [] rfl (set_same d p []))
      have h4 := Run.step h3 (Step.closeFile _ p [] ([] ++ w.pieces.flatten).dropLast rfl (set_same _ p _))
      exact ⟨_, _, h2, by rw [h1]; exact h4, rfl, rfl⟩

/-- A write over an existing file, a crash in a second one, and a refused third one. -/
example : ∃ d' : Disk, History (fun _ => true) (fun q => if q = c!"A" then some (.file c!"old") else none)
    [(⟨[c!"x", c!"y"], .ok (), false⟩, { path := some (some c!"A") }, some (.ok ())),
     (⟨[c!"z"], .ok (), true⟩, { path := some (some c!"B") }, none),
     (⟨[c!"z"], .ok (), true⟩, {}, some (.exit 10))] d' ∧ d'.read c!"A" = some c!"xy" := by
  obtain ⟨d1, h1⟩ := C87_ends (fun _ => true) (fun q => if q = c!"A" then some (.file c!"old") else none)
    ⟨[c!"x", c!"y"], .ok (), false⟩ c!"A" rfl
  have h := History.ended (History.start _) h1
  have h' := History.killed (w := ⟨[c!"z"], .ok (), true⟩) (a := { path := some (some c!"B") }) h
    ⟨[], _, _, (List.nil_append _).symm, Run.start _, rfl⟩
  have h'' := History.ended (w := ⟨[c!"z"], .ok (), true⟩) (a := {}) h' (r := .exit 10) (sink := []) ⟨_, rfl, Run.start _, rfl, rfl⟩
  refine ⟨_, h'', (C87_history h'' c!"A").2 [] _ [(⟨[c!"z"], .ok (), true⟩, { path := some (some c!"B") }, none),
     (⟨[c!"z"], .ok (), true⟩, {}, some (.exit 10))] rfl ?_⟩
  intro c hc
  simp only [List.mem_cons, List.not_mem_nil, or_false] at hc
  rcases hc with rfl | rfl <;> simp [Names]

/-! ### violations of C87 -/

/-- The claim of C87 a crash breaks: for any text to be written and any file there was, a kill right after `open` leaves the
path empty — neither the old nor the new content. -/
theorem C87_violation_crash (perm : Str → Bool) (d : Disk) (w : Writer) (p old : Str) (hp : perm p = true)
    (hd : d p = some (.file old)) (hold : old ≠ []) (hnew : Text w ≠ []) :
    ∃ d', Crash perm d w { path := some (some p) } d' ∧ d'.read p ≠ some old ∧ d'.read p ≠ some (Text w) := by
  have ho : canOpen perm d p = true := by simp [canOpen, hp, hd]
  refine ⟨d.set p [], ⟨[.open p], (w.pieces.map (Event.write (.file p)) ++
      (if w.chop && w.result.isOk then [.chop (.file p)] else [])) ++ (if w.result.isOk then [.close (.file p)] else []),
    ⟨d.set p [], some (p, []), []⟩, ?_, exists_run d p [], rfl⟩, ?_, ?_⟩
  · rw [(call_path ho).1]; simp
  · rw [read_set]; simpa using hold.symm
  · rw [read_set]; simpa using hnew.symm

/-- C87 is violated by every read-only parser (vasprun, OUTCAR, DOSCAR, EIGENVAL, CHGCAR, stream): `write(file_path=p)` is
refused with `NotImplementedError`, and on every execution the file is empty afterwards. -/
theorem C87_violation_read_only (perm : Str → Bool) (d : Disk) (p : Str) (ho : canOpen perm d p = true) :
    (∃ d' sink, Ends perm d readOnlyWriter { path := some (some p) } (.raise .notImplementedError) d' sink) ∧
    ∀ r d' sink, Ends perm d readOnlyWriter { path := some (some p) } r d' sink →
      r = .raise .notImplementedError ∧ d'.read p = some [] := by
  have h1 := (call_path (w := readOnlyWriter) ho).1
  have h2 := (call_path (w := readOnlyWriter) ho).2
  simp only [readOnlyWriter, List.map_nil, Res.isOk, Bool.and_false, Bool.false_eq_true, if_false, List.append_nil] at h1 h2
  constructor
  · refine ⟨d.set p [], [], ⟨⟨d.set p [], some (p, []), []⟩, h2, ?_, rfl, rfl⟩⟩
    rw [show (call perm d readOnlyWriter { path := some (some p) }).1 = _ from h1]
    exact exists_run d p []
  · rintro r d' sink ⟨s, h3, h4, rfl, -⟩
    refine ⟨(h3.symm.trans h2), ?_⟩
    rw [show (call perm d readOnlyWriter { path := some (some p) }).1 = _ from h1] at h4
    obtain ⟨c, buf, k1, k2, k3⟩ := ((run_open h4).2 [] rfl).ex
    obtain ⟨rfl, -⟩ := List.append_eq_nil_iff.1 k3
    rw [k1, read_set]

/-- C87 is violated by `Potcar.write(file_path=p)`: it returns normally and the file is empty. -/
theorem C87_violation_potcar (perm : Str → Bool) (d d' : Disk) (p sink : Str)
    (h : Ends perm d potcarWriter { path := some (some p) } (.ok ()) d' sink) : d'.read p = some [] :=
  ((C87_success perm d d' potcarWriter p sink).1 h).1

/-- C87 is violated by a KPOINTS or POSCAR object whose check fails at the beginning of `_write`: the documented exit is taken
and the file that was there is empty. -/
theorem C87_violation_refused (perm : Str → Bool) (d : Disk) (p : Str) (c : Nat) (ho : canOpen perm d p = true) :
    ∀ r d' sink, Ends perm d (refusedWriter (.exit c)) { path := some (some p) } r d' sink →
      r = .exit c ∧ d'.read p = some [] := by
  have h1 := (call_path (w := refusedWriter (.exit c)) ho).1
  have h2 := (call_path (w := refusedWriter (.exit c)) ho).2
  simp only [refusedWriter, List.map_nil, Res.isOk, Bool.and_false, Bool.false_eq_true, if_false, List.append_nil] at h1 h2
  rintro r d' sink ⟨s, h3, h4, rfl, -⟩
  refine ⟨(h3.symm.trans h2), ?_⟩
  rw [show (call perm d (refusedWriter (.exit c)) { path := some (some p) }).1 = _ from h1] at h4
  obtain ⟨e, buf, k1, k2, k3⟩ := ((run_open h4).2 [] rfl).ex
  obtain ⟨rfl, -⟩ := List.append_eq_nil_iff.1 k3
  rw [k1, read_set]

/-! ### C88: what was written to a path is what is read from it -/

theorem writes_text {w : Writer} {t : Str} (h : Writes w (.ok t)) : Text w = t := h.2

/-- The INCAR writer writes the modelled text. -/
theorem incarWriter_writes (b : Bool) (d : Incar.Entries) : Writes (incarWriter b d) (.ok (Incar.writeText b d)) := by
  refine ⟨rfl, ?_⟩
  simp only [incarWriter, Incar.writeText, List.flatMap_def, Bool.false_eq_true, if_false]
  congr 2

/-- C88, INCAR: after `x.write(file_path=p)` returned, `Incar(file_path=p)` gives an object with the same values (and comments, if
they were written), and the file holds `x.get_string()` when comments are off. -/
theorem C88_incar (perm : Str → Bool) (disk disk' : Disk) (F : FloatEnv) (b : Bool) (d : Incar.Entries) (p sink : Str)
    (hk : d.keys.Nodup) (hd : ∀ e ∈ d, e.1 = e.2.tag ∧ Incar.StorableItem F e.2)
    (h : Ends perm disk (incarWriter b d) { path := some (some p) } (.ok ()) disk' sink) :
    (b = false → disk'.read p = some (Incar.getString d)) ∧
    ∃ d', Incar.init F [] false { path := some (disk'.read p) } = .ok d' ∧ (∀ t, Incar.get d' t = Incar.get d t) ∧
      (b = true → ∀ t, (d'.get? t).map Incar.Item.comment = (d.get? t).map Incar.Item.comment) := by
  have hr := ((C87_success perm disk disk' (incarWriter b d) p sink).1 h).1
  rw [writes_text (incarWriter_writes b d)] at hr
  refine ⟨?_, ?_⟩
  · rintro rfl; exact hr
  · obtain ⟨d', h1, h2, h3⟩ := Incar.C02_round_trip F b d hk hd
    refine ⟨d', ?_, h2, h3⟩
    rw [hr]
    simp [Incar.init, Incar.tooMany, Incar.noneGiven, Incar.loadEntries, Incar.fileLines, Incar.parseSource, h1, Incar.validate]

/-- C88, KPOINTS: whatever text `write` produces, reading the path afterwards is reading that text. With the round-trip theorems
C21, C22, C23 this gives the object read back. -/
theorem C88_kpoints (perm : Str → Bool) (disk disk' : Disk) (prec : Nat) (e : Kpoints.Entries) (w : Writer) (p sink : Str)
    (hw : Writes w (Kpoints.write prec e)) (h : Ends perm disk w { path := some (some p) } (.ok ()) disk' sink) :
    ∃ text, Kpoints.write prec e = .ok text ∧ disk'.read p = some text ∧
      Kpoints.FromText text { path := some (disk'.read p) } := by
  have hr := ((C87_success perm disk disk' w p sink).1 h).1
  have hres : w.result = .ok () := by
    obtain ⟨s, h1, -, -, -⟩ := h
    cases ho : canOpen perm disk p with
    | false =>
      unfold call at h1; rw [C46_path_unopenable _ _ _ ho] at h1; cases h1
    | true => rw [(call_path ho).2] at h1; exact h1
  cases hk : Kpoints.write prec e with
  | ok t =>
    rw [hk] at hw
    rw [writes_text hw] at hr
    exact ⟨t, rfl, hr, .inr (.inl (by rw [hr]))⟩
  | exit c => rw [hk] at hw; have hw := hres.symm.trans hw; cases hw
  | raise c => rw [hk] at hw; have hw := hres.symm.trans hw; cases hw

/-- C88, KPOINTS with explicit points, from object to file to object. -/
theorem C88_kpoints_explicit (perm : Str → Bool) (disk disk' : Disk) (prec : Nat) (e : Kpoints.Entries) (w : Writer) (path sink : Str)
    (cm : Option Str) (p : Kpoints.Parsed) (pts : List Kpoints.Kpoint)
    (tet : Option (List (List Int) × Rat)) (hh : Kpoints.Holds e cm p) (hs : Kpoints.Sound p) (hm : p.mode = c!"explicit")
    (hp : p.points = some pts) (hn : p.num = pts.length) (hne : pts ≠ []) (ht : p.tetra = tet.map Prod.fst)
    (hv : p.tetraVol = tet.map Prod.snd) (hpts : ∀ p ∈ pts, p.coord.length = 3) (hcm : Kpoints.OkComment cm)
    (hw : Writes w (Kpoints.write prec e)) (h : Ends perm disk w { path := some (some path) } (.ok ()) disk' sink) :
    ∃ e', Kpoints.init { path := some (disk'.read path) } = .ok e' ∧
      Kpoints.Holds e' (some (Kpoints.shownComment cm))
        { comment := Kpoints.shownComment cm, num := pts.length, mode := c!"explicit"
          points := some (pts.map fun k => ⟨k.coord.map (roundDec prec), some (roundDec prec (k.weight.getD 1)), true⟩)
          tetra := tet.map Prod.fst, tetraVol := tet.map fun t => roundDec prec t.2 } := by
  obtain ⟨text, h1, h2, h3⟩ := C88_kpoints perm disk disk' prec e w path sink hw h
  obtain ⟨text', k1, k2⟩ := Kpoints.C21_explicit_round_trip prec e cm p pts tet hh hs hm hp hn hne ht hv hpts hcm
  rw [h1] at k1
  obtain rfl := Res.ok.inj k1
  exact k2 _ h3

/-- C88, POSCAR: from object to file to object, up to the rounding of the print. -/
theorem C88_poscar (perm : Str → Bool) (disk disk' : Disk) (prec : Nat) (conserve direct : Bool) (e : Poscar.Entries)
    (cm : Option Str) (c : Poscar.Cell) (sites : List Poscar.Site) (w : Writer) (p sink : Str)
    (hh : Poscar.Holds e cm c sites) (hpr : Poscar.Printable cm sites) (hc : Poscar.CellOk prec direct c)
    (hw : Writes w (Poscar.write prec conserve direct e))
    (h : Ends perm disk w { path := some (some p) } (.ok ()) disk' sink) :
    ∃ g e' cm' sites', Poscar.sortAndGroup conserve e = .ok g ∧ Poscar.init { path := some (disk'.read p) } = .ok e' ∧
      Poscar.Holds e' (some cm') (Poscar.roundM prec c) sites' ∧ sites'.length = g.sites.length ∧
      ∀ (k : Nat) (s s' : Poscar.Site), g.sites[k]? = some s → sites'[k]? = some s' → Poscar.SameSite prec direct c s s' := by
  have hr := ((C87_success perm disk disk' w p sink).1 h).1
  have hres : w.result = .ok () := by
    obtain ⟨s, h1, -, -, -⟩ := h
    cases ho : canOpen perm disk p with
    | false =>
      unfold call at h1; rw [C46_path_unopenable _ _ _ ho] at h1; cases h1
    | true => rw [(call_path ho).2] at h1; exact h1
  cases hk : Poscar.write prec conserve direct e with
  | ok t =>
    rw [hk] at hw
    rw [writes_text hw] at hr
    obtain ⟨g, e', cm', sites', h1, h2, h3, h4, h5⟩ := Poscar.C15_round_trip prec conserve direct e cm c sites t hh hpr hc hk
    exact ⟨g, e', cm', sites', h1, by rw [hr]; exact h2.file, h3, h4, h5⟩
  | exit c => rw [hk] at hw; have hw := hres.symm.trans hw; cases hw
  | raise c => rw [hk] at hw; have hw := hres.symm.trans hw; cases hw

/-! ### C89: the file checks -/

/-- C89: `file_exists` answers for every non-empty path whether it names anything, and exits 16 otherwise; `_check_file`
passes exactly for a file that can be read and exits 14 for any other path. -/
theorem C89_checks (d : Disk) (p : Str) (own : Option Str) :
    (p ≠ [] → fileExists d (some p) = .ok (d p).isSome) ∧ fileExists d (some []) = .exit 16 ∧ fileExists d none = .exit 16 ∧
    (checkFile d own (some p) = .ok () ↔ ∃ t, d p = some (.file t)) ∧
    ((¬ ∃ t, d p = some (.file t)) → checkFile d own (some p) = .exit 14) ∧
    checkFile d (some p) none = checkFile d none (some p) := by
  refine ⟨?_, rfl, rfl, ?_, ?_, rfl⟩
  · intro h
    cases p with
    | nil => exact absurd rfl h
    | cons a l => rfl
  · unfold checkFile Disk.read
    cases h : d p with
    | none => simp [h]
    | some n => cases n <;> simp [h]
  · unfold checkFile Disk.read
    cases h : d p with
    | none => simp [h]
    | some n => cases n <;> simp [h]

end Verif.Files
