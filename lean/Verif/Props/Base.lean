import Verif.Model.Base
/-! # C46: `write()` and its target -/
set_option autoImplicit false
namespace Verif.Base
open Verif

/-- C46. Exactly one of the two keys must be given; otherwise exit 10 and nothing happens outside. -/
theorem C46_one_target (openable : Str → Bool) (w : Writer) (a : Args) (h : a.path.isSome = a.handler.isSome) :
    write openable w a = ([], .exit 10) := by
  unfold write; rw [h]; cases a.handler.isSome <;> rfl

/-- C46. A path that can be opened: it is opened once, gets exactly the pieces of the writer in order and is closed, provided
the writer returns. Missing: that the file is closed if the writer raises, which is false (`C46_violation_*`). -/
theorem C46_path_partial (openable : Str → Bool) (ps : List Str) (p : Str) (ho : openable p = true) :
    write openable ⟨ps, .ok (), false⟩ { path := some (some p) } =
      ([.open p] ++ ps.map (Event.write (.file p)) ++ [.close (.file p)], .ok ()) ∧
    write openable ⟨ps, .ok (), true⟩ { path := some (some p) } =
      ([.open p] ++ ps.map (Event.write (.file p)) ++ [.chop (.file p), .close (.file p)], .ok ()) := by
  simp [write, openFile, ho, runWriter, Res.isOk]

/-- C46. A path that cannot be opened: exit 14, nothing written. -/
theorem C46_path_unopenable (openable : Str → Bool) (w : Writer) (p : Str) (ho : openable p = false) :
    write openable w { path := some (some p) } = ([], .exit 14) := by
  simp [write, openFile, ho]

/-- C46. A handler is written and neither opened nor closed, whatever the writer does. -/
theorem C46_handler (openable : Str → Bool) (w : Writer) :
    write openable w { handler := some true } =
      (w.pieces.map (Event.write .handler) ++ (if w.chop && w.result.isOk then [.chop .handler] else []), w.result) := by
  simp [write, runWriter]

/-- C46. In every call: no path but the given one is opened, and every write goes to the one target. -/
theorem C46_only_target (openable : Str → Bool) (w : Writer) (a : Args) (e : Event) (he : e ∈ (write openable w a).1) :
    (∃ p, a.path = some (some p) ∧ a.handler = none ∧
      (e = .open p ∨ (∃ s ∈ w.pieces, e = .write (.file p) s) ∨ e = .chop (.file p) ∨ e = .close (.file p))) ∨
    (a.handler = some true ∧ a.path = none ∧ ((∃ s ∈ w.pieces, e = .write .handler s) ∨ e = .chop .handler)) := by
  obtain ⟨pa, ha⟩ := a
  have hch : ∀ t, e ∈ (if w.chop && w.result.isOk then [Event.chop t] else []) → e = .chop t := by
    intro t h; split at h <;> simp_all
  unfold write at he
  cases pa with
  | none =>
    cases ha with
    | none => simp at he
    | some b =>
      cases b with
      | true =>
        simp only [Option.isSome_none, Option.isSome_some, Bool.and_true, Bool.not_true, Bool.and_false, Bool.or_self,
          Bool.false_eq_true, if_false, runWriter, List.mem_append, List.mem_map] at he
        rcases he with ⟨s, hs, rfl⟩ | h
        · exact .inr ⟨rfl, rfl, .inl ⟨s, hs, rfl⟩⟩
        · exact .inr ⟨rfl, rfl, .inr (hch _ h)⟩
      | false => simp only [runWriter] at he; cases hp : w.pieces <;> simp [hp] at he
  | some q =>
    cases ha with
    | some b => simp at he
    | none =>
      cases q with
      | none => simp only [runWriter] at he; cases hp : w.pieces <;> simp [hp] at he
      | some p =>
        left
        refine ⟨p, rfl, rfl, ?_⟩
        simp only [Option.isSome_none, Option.isSome_some, Bool.and_false, Bool.not_true, Bool.not_false, Bool.and_true,
          Bool.or_self, Bool.false_eq_true, if_false, openFile] at he
        by_cases ho : openable p = true
        · simp only [ho, if_true, runWriter] at he
          have key : e = .open p ∨ ((∃ s ∈ w.pieces, Event.write (.file p) s = e) ∨
              e ∈ (if w.chop && w.result.isOk then [Event.chop (.file p)] else [])) ∨ e = .close (.file p) := by
            cases hr : w.result <;> simp only [hr, List.mem_append, List.mem_singleton, List.mem_map] at he ⊢
            · rcases he with (h | h) | h
              · exact .inl h
              · exact .inr (.inl h)
              · exact .inr (.inr h)
            all_goals
              rcases he with h | h
              · exact .inl h
              · exact .inr (.inl h)
          rcases key with h | (⟨s, hs, rfl⟩ | h) | h
          · exact .inl h
          · exact .inr (.inl ⟨s, hs, rfl⟩)
          · exact .inr (.inr (.inl (hch _ h)))
          · exact .inr (.inr (.inr h))
        · simp [ho] at he

example : write (fun _ => true) ⟨[c!"a", c!"b"], .ok (), false⟩ { path := some (some c!"INCAR") } =
    ([.open c!"INCAR", .write (.file c!"INCAR") c!"a", .write (.file c!"INCAR") c!"b", .close (.file c!"INCAR")], .ok ()) := by
  decide

/-- C46 is violated when the writer fails: the file named by the path is opened and never closed by `write`. -/
theorem C46_violation_not_closed (openable : Str → Bool) (ps : List Str) (ch : Bool) (p : Str) (e : Exc) (ho : openable p = true) :
    write openable ⟨ps, .raise e, ch⟩ { path := some (some p) } = ([.open p] ++ ps.map (Event.write (.file p)), .raise e) ∧
    Event.close (.file p) ∉ (write openable ⟨ps, .raise e, ch⟩ { path := some (some p) }).1 := by
  have h : write openable ⟨ps, .raise e, ch⟩ { path := some (some p) } = ([.open p] ++ ps.map (Event.write (.file p)), .raise e) := by
    simp [write, openFile, ho, runWriter, Res.isOk]
  refine ⟨h, ?_⟩
  rw [h]; simp

/-- C46 is violated by an empty path: the key is present, no documented exit is taken and `_write` fails with
`AttributeError` on the string `''`. -/
theorem C46_violation_empty_path (openable : Str → Bool) (s : Str) (ch : Bool) :
    write openable ⟨[s], .ok (), ch⟩ { path := some none } = ([], .raise .attributeError) := by
  simp [write, runWriter]

end Verif.Base
