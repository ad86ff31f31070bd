import Verif.Lemmas.Incar2
import Verif.Props.IncarParse
/-! # The INCAR object as a map (C06, C07, C08, C09 for Incar, C61) -/
set_option autoImplicit false
namespace Verif.Incar
open Verif Verif.Utils Verif.IncarSpec

/-! ### C06 -/

/-- C06. With validation the constructor behaves like the one without validation, except that it exits 100 iff some tag is not
in the table. -/
theorem C06_validation (F : FloatEnv) (allowed : List Str) (s : Sources) :
    (∀ d, init F allowed true s = .ok d ↔ init F allowed false s = .ok d ∧ ∀ t ∈ d.keys, t ∈ allowed) ∧
    (∀ d, init F allowed false s = .ok d → (∃ t ∈ d.keys, t ∉ allowed) → init F allowed true s = .exit 100) ∧
    (∀ k, init F allowed false s = .exit k → init F allowed true s = .exit k) ∧
    (∀ e, init F allowed false s = .raise e → init F allowed true s = .raise e) := by
  have key : ∀ r : Res Entries, ∀ vt : Bool,
      (r >>= fun entries => validate vt allowed entries >>= fun _ => (Res.ok entries : Res Entries)) =
      match r with
      | .ok d => if vt = true ∧ ¬ (∀ t ∈ d.keys, t ∈ allowed) then .exit 100 else .ok d
      | .exit c => .exit c
      | .raise e => .raise e := by
    intro r vt
    cases r with
    | exit => rfl
    | raise => rfl
    | ok d =>
      simp only [Res.ok_bind, validate]
      cases vt with
      | false => simp
      | true =>
        by_cases h : ∀ t ∈ d.keys, t ∈ allowed
        · have : d.keys.all (fun k => decide (k ∈ allowed)) = true := by simpa using h
          have h2 : ¬ (true = true ∧ ¬ ∀ t ∈ d.keys, t ∈ allowed) := fun hc => hc.2 h
          rw [this, if_neg h2]; rfl
        · have : d.keys.all (fun k => decide (k ∈ allowed)) = false := by
            rw [Bool.eq_false_iff]; simpa using h
          have h2 : (true = true ∧ ¬ ∀ t ∈ d.keys, t ∈ allowed) := ⟨rfl, h⟩
          rw [this, if_pos h2]; rfl
  have hin : ∀ vt, init F allowed vt s = init F allowed false s >>= fun d =>
      if vt = true ∧ ¬ (∀ t ∈ d.keys, t ∈ allowed) then .exit 100 else .ok d := by
    intro vt
    unfold init
    split
    · rfl
    split
    · rfl
    rw [key, key]
    cases loadEntries F s <;> simp
  refine ⟨?_, ?_, ?_, ?_⟩
  · intro d
    rw [hin true, Res.bind_eq_ok]
    constructor
    · rintro ⟨d', h1, h2⟩
      split at h2
      · cases h2
      · rename_i h
        cases h2
        refine ⟨h1, ?_⟩
        by_contra hc; exact h ⟨rfl, hc⟩
    · rintro ⟨h1, h2⟩
      exact ⟨d, h1, by rw [if_neg]; exact fun h => h.2 h2⟩
  · intro d h ⟨t, ht, hn⟩
    rw [hin true, h, Res.ok_bind, if_pos ⟨rfl, fun hc => hn (hc t ht)⟩]
  · intro k h; rw [hin true, h]; rfl
  · intro k h; rw [hin true, h]; rfl

example : init exactEnv incarTags true { string := some c!"ENCUT = 300" } =
    .ok [(c!"encut", ⟨c!"encut", .one (.int 300), none⟩)] := by decide +kernel
example : init exactEnv incarTags false { string := some c!"FOO = 300" } =
    .ok [(c!"foo", ⟨c!"foo", .one (.int 300), none⟩)] ∧ c!"foo" ∉ incarTags := by decide +kernel

/-! ### C07 -/

/-- The calls that change an `Incar` object. -/
inductive Op
  | modify (tag : Str) (value : Value) (comment : Option Str)
  | delete (tag : Str)

/-- One call on the model: new entries and what the caller sees. A call that exits or raises leaves the entries as they are. -/
def step (F : FloatEnv) (d : Entries) : Op → Entries × Res Unit
  | .modify t v c => match modify F d t v c with
    | .ok d' => (d', .ok ())
    | .exit k => (d, .exit k)
    | .raise e => (d, .raise e)
  | .delete t => (delete d t, .ok ())

/-- A history of calls. -/
def run (F : FloatEnv) (d : Entries) (ops : List Op) : Entries := ops.foldl (fun d o => (step F d o).1) d

/-- Specification: a map from tags to values. -/
abbrev Map := Str → Option Value

/-- Specification of one call: `modify` binds the item's tag to the item's value, `delete` unbinds a tag, everything else
stays. -/
def specStep (F : FloatEnv) (m : Map) : Op → Map
  | .modify t v c => match cleanEntry F t v c with
    | .ok i => fun x => if x = i.tag then some i.value else m x
    | _ => m
  | .delete t => fun x => if x = t then none else m x

theorem step_keys_nodup (F : FloatEnv) (d : Entries) (o : Op) (h : d.keys.Nodup) : (step F d o).1.keys.Nodup := by
  cases o with
  | modify t v c =>
    simp only [step, modify]
    cases cleanEntry F t v c with
    | ok i => exact Dict.keys_set_nodup _ _ _ h
    | exit => exact h
    | raise => exact h
  | delete t => exact Dict.keys_del_nodup _ _ h

theorem run_keys_nodup (F : FloatEnv) (d : Entries) (ops : List Op) (h : d.keys.Nodup) : (run F d ops).keys.Nodup := by
  induction ops generalizing d with
  | nil => exact h
  | cons o ops ih => exact ih _ (step_keys_nodup F d o h)

theorem step_refines (F : FloatEnv) (d : Entries) (o : Op) (t : Str) :
    get (step F d o).1 t = specStep F (get d) o t := by
  cases o with
  | modify tg v c =>
    simp only [step, modify, specStep]
    cases cleanEntry F tg v c with
    | ok i =>
      simp only [get, Dict.get?_set]
      by_cases h : i.tag = t
      · simp [h]
      · simp [h, Ne.symm h]
    | exit => rfl
    | raise => rfl
  | delete tg =>
    simp only [step, delete, specStep, get, Dict.get?_del]
    by_cases h : tg = t
    · simp [h]
    · simp [h, Ne.symm h]

theorem getDict_aux (d : Entries) (acc : Dict Str Value) (h : d.keys.Nodup) (t : Str) :
    Dict.get? (d.foldl (fun acc e => Dict.set acc e.1 e.2.value) acc) t = ((d.get? t).map Item.value).or (acc.get? t) := by
  induction d generalizing acc with
  | nil => simp
  | cons e r ih =>
    obtain ⟨k, i⟩ := e
    simp only [Dict.keys, List.map_cons, List.nodup_cons] at h
    rw [List.foldl_cons, ih _ h.2, Dict.get?_set]
    simp only [Dict.get?]
    by_cases hk : k = t
    · subst hk
      have : Dict.get? r k = none := by
        cases hg : Dict.get? r k with
        | none => rfl
        | some v => exact absurd (List.mem_map.2 ⟨_, Dict.mem_of_get? r hg, rfl⟩) h.1
      simp [this]
    · simp [hk]

/-- C07. For every history of `modify`/`delete` calls on an object with distinct tags, `get` answers what the abstract map
answers, and `get_dict` agrees with `get` on every tag. -/
theorem C07_map_semantics (F : FloatEnv) (d : Entries) (ops : List Op) (hd : d.keys.Nodup) (t : Str) :
    get (run F d ops) t = (ops.foldl (specStep F) (get d)) t ∧
    Dict.get? (getDict (run F d ops)) t = get (run F d ops) t := by
  constructor
  · unfold run
    induction ops generalizing d with
    | nil => rfl
    | cons o ops ih =>
      rw [List.foldl_cons, List.foldl_cons, ih _ (step_keys_nodup F d o hd)]
      have : get (step F d o).1 = specStep F (get d) o := funext fun x => step_refines F d o x
      rw [this]
  · unfold getDict
    rw [getDict_aux _ _ (run_keys_nodup F d ops hd)]
    simp [get]

/-- C07. Objects built by the constructor have distinct tags, so the previous theorem applies to every reachable object. -/
theorem C07_constructed_distinct (F : FloatEnv) (allowed : List Str) (vt : Bool) (s : Sources) (d : Entries)
    (h : init F allowed vt s = .ok d) : d.keys.Nodup := by
  have hl : ∀ ls d, fromList F ls = .ok d → d.keys.Nodup := by
    intro ls d h
    rw [fromList_eq, Res.bind_eq_ok] at h
    obtain ⟨is, _, h2⟩ := h
    cases h2
    exact keys_foldl_nodup [] is (by simp [Dict.keys])
  have hdict : ∀ (items : List (Str × Value)) (d0 d : Entries), d0.keys.Nodup →
      Res.foldlM' (fun d (p : Str × Value) => match dictItem F p.1 p.2 with
        | .ok item => .ok (d.set item.tag item)
        | .exit c => .exit c
        | .raise e => .raise e) d0 items = .ok d → d.keys.Nodup := by
    intro items
    induction items with
    | nil => intro d0 d h0 h; cases h; exact h0
    | cons p ps ih =>
      intro d0 d h0 h
      simp only [Res.foldlM'] at h
      cases hp : dictItem F p.1 p.2 with
      | ok i => rw [hp] at h; exact ih _ _ (Dict.keys_set_nodup _ _ _ h0) h
      | exit => rw [hp] at h; cases h
      | raise => rw [hp] at h; cases h
  unfold init at h
  split at h
  · cases h
  split at h
  · cases h
  rw [Res.bind_eq_ok] at h
  obtain ⟨d', h1, h⟩ := h
  rw [Res.bind_eq_ok] at h
  obtain ⟨_, _, h⟩ := h
  cases h
  have hp : ∀ ls, parseSource F s ls = .ok d → d.keys.Nodup := by
    intro ls h1
    unfold parseSource at h1
    split at h1
    · exact hdict _ _ _ (by simp [Dict.keys]) h1
    · exact hl _ _ h1
  unfold loadEntries at h1
  split at h1
  · rw [Res.bind_eq_ok] at h1
    obtain ⟨ls, _, h1⟩ := h1
    exact hp ls h1
  · exact hp _ h1

example : run exactEnv [] [.modify c!" ENCUT" (.one (.int 300)) none, .modify c!"encut " (.one (.str c!"400")) none,
    .modify c!"foo" .other none, .modify c!"nsw" (.one (.int 3)) none, .delete c!"nsw"] =
    [(c!"encut", ⟨c!"encut", .one (.int 400), none⟩)] := by decide +kernel

/-! ### C08 -/

/-- C08, partial: the first component of `get(tag, comment=True)` is the value. Missing: the second component is the comment,
which is false (`C08_violation`). -/
theorem C08_value_partial (d : Entries) (t : Str) : (getWithComment d t).1 = get d t := rfl

/-- C08 is violated on every stored entry: the second component is again the value, never the comment text. -/
theorem C08_violation (d : Entries) (t : Str) (i : Item) (h : d.get? t = some i) :
    (getWithComment d t).2 = some i.value ∧
    (∀ c, i.comment = some c → (∀ v, i.value = .one (.str v) → v ≠ c) → (getWithComment d t).2 ≠ some (.one (.str c))) := by
  constructor
  · simp [getWithComment, h]
  · intro c _ hv hc
    simp only [getWithComment, h, Option.map_some, Option.some.injEq] at hc
    exact hv c hc rfl

example : getWithComment [(c!"encut", ⟨c!"encut", .one (.int 300), some c!"cutoff"⟩)] c!"encut" =
    (some (.one (.int 300)), some (.one (.int 300))) := by decide

/-! ### C61: letter case of the tag in `get` and `delete` -/

/-- C61 is violated: `modify('ENCUT', ...)` stores under `encut`, but `get('ENCUT')` finds nothing and `delete('ENCUT')`
deletes nothing. -/
theorem C61_violation : ∃ d : Entries, ∃ t : Str,
    modify exactEnv [] t (.one (.int 300)) none = .ok d ∧ get d t = none ∧ delete d t = d ∧ d ≠ [] :=
  ⟨[(c!"encut", ⟨c!"encut", .one (.int 300), none⟩)], c!"ENCUT", by decide +kernel, by decide +kernel, by decide +kernel, by simp⟩

/-- C61, partial: in an object built by parsing/modifying, every stored tag is lower case, so `get`/`delete` with a lower-case
tag address it. Missing: other spellings. -/
theorem C61_lowercase_partial (F : FloatEnv) (d d' : Entries) (tag : Str) (v : Value) (c : Option Str)
    (h : modify F d tag v c = .ok d') : ∃ w ws, words tag = w :: ws ∧
      (∃ x, get d' (lower w) = some x) ∧ get (delete d' (lower w)) (lower w) = none := by
  unfold modify at h
  cases hc : cleanEntry F tag v c with
  | exit => rw [hc] at h; cases h
  | raise => rw [hc] at h; cases h
  | ok i =>
    rw [hc] at h; cases h
    obtain ⟨w, ws, hw, ht⟩ : ∃ w ws, words tag = w :: ws ∧ i.tag = lower w := by
      unfold cleanEntry at hc
      split at hc
      · cases hc
      · rename_i w ws hw
        refine ⟨w, ws, hw, ?_⟩
        dsimp only at hc
        split at hc
        · split at hc
          · cases hc; rfl
          · split at hc <;> cases hc; rfl
        · cases hc
        · cases hc; rfl
    refine ⟨w, ws, hw, ⟨i.value, by simp [get, Dict.get?_set, ht]⟩, ?_⟩
    simp [get, delete, Dict.get?_del]

/-! ### C09 for `Incar` -/

/-- Number of sources given. -/
def Sources.count (s : Sources) : Nat :=
  s.string.isSome.toNat + s.dict.isSome.toNat + s.path.isSome.toNat + s.handler.isSome.toNat

theorem cleanEntry_exit (F : FloatEnv) (t : Str) (v : Value) (c : Option Str) (k : Nat) (h : cleanEntry F t v c = .exit k) :
    k = 104 ∨ k = 105 := by
  unfold cleanEntry at h
  split at h
  · cases h
  · dsimp only at h
    split at h
    · split at h
      · cases h
      · split at h
        · cases h
        · rename_i hc; cases h; exact .inl (cleanString_exit F _ _ hc)
        · cases h
    · cases h; exact .inr rfl
    · cases h

theorem fromDict_exit (F : FloatEnv) (items : List (Str × Value)) (k : Nat) (h : fromDict F items = .exit k) :
    k = 103 ∨ k = 104 ∨ k = 105 := by
  unfold fromDict at h
  generalize ([] : Entries) = d at h
  induction items generalizing d with
  | nil => cases h
  | cons p ps ih =>
    simp only [Res.foldlM'] at h
    cases hd : dictItem F p.1 p.2 with
    | ok i => rw [hd] at h; exact ih _ h
    | raise => rw [hd] at h; cases h
    | exit c =>
      rw [hd] at h; cases h
      unfold dictItem at hd
      split at hd
      · split at hd
        · rcases cleanEntry_exit F _ _ _ _ hd with h | h <;> simp [h]
        · rcases cleanEntry_exit F _ _ _ _ hd with h | h <;> simp [h]
        · cases hd; exact .inl rfl
      · rcases cleanEntry_exit F _ _ _ _ hd with h | h <;> simp [h]

theorem parseSource_exit (F : FloatEnv) (s : Sources) (l : List Str) : parseSource F s l ≠ .exit 10 := by
  intro h
  unfold parseSource at h
  split at h
  · rcases fromDict_exit F _ _ h with h | h | h <;> cases h
  · rcases (C11_failures_partial F _).1 _ h with h | h | h <;> cases h

theorem loadEntries_exit (F : FloatEnv) (s : Sources) : loadEntries F s ≠ .exit 10 := by
  intro h
  unfold loadEntries at h
  split at h
  · cases hf : fileLines s with
    | ok l => rw [hf] at h; exact parseSource_exit F s l h
    | raise => rw [hf] at h; cases h
    | exit k =>
      rw [hf] at h; cases h
      unfold fileLines at hf
      split at hf
      · cases hf
      · split at hf <;> cases hf
  · exact parseSource_exit F s _ h

/-- C09 (Incar), partial: no source exits 10; a string together with a dictionary or a path exits 10; exactly one source never
exits 10. Missing: the other combinations of several sources, accepted (`C09_incar_violation`). -/
theorem C09_incar_partial (F : FloatEnv) (allowed : List Str) (vt : Bool) (s : Sources) :
    (s.count = 0 → init F allowed vt s = .exit 10) ∧
    (s.string.isSome → (s.dict.isSome ∨ s.path.isSome) → init F allowed vt s = .exit 10) ∧
    (s.count = 1 → init F allowed vt s ≠ .exit 10) := by
  refine ⟨?_, ?_, ?_⟩
  · obtain ⟨a, b, c, d⟩ := s
    cases a <;> cases b <;> cases c <;> cases d <;> intro h <;> first | rfl | (simp [Sources.count] at h)
  · obtain ⟨a, b, c, d⟩ := s
    cases a <;> cases b <;> cases c <;> intro h1 h2 <;> first | rfl | (simp at h1; done) | (simp at h2; done)
  · intro h
    have hg : tooMany s.string.isSome s.dict.isSome s.path.isSome s.handler.isSome = false ∧
        noneGiven s.string.isSome s.dict.isSome s.path.isSome s.handler.isSome = false := by
      obtain ⟨a, b, c, d⟩ := s
      revert h
      cases a <;> cases b <;> cases c <;> cases d <;> intro h <;> first | exact ⟨rfl, rfl⟩ | (simp [Sources.count] at h)
    unfold init
    rw [hg.1, hg.2]
    simp only [Bool.false_eq_true, if_false]
    intro h
    cases hl : loadEntries F s with
    | ok d =>
      rw [hl] at h
      have h' : (validate vt allowed d >>= fun _ => Res.ok d) = .exit 10 := h
      cases hv : validate vt allowed d with
      | ok u => rw [hv] at h'; cases h'
      | raise => rw [hv] at h'; cases h'
      | exit k =>
        rw [hv] at h'; cases h'
        unfold validate at hv
        split at hv
        · cases hv
        · split at hv <;> cases hv
    | raise => rw [hl] at h; cases h
    | exit k => rw [hl] at h; cases h; exact loadEntries_exit F s hl

example : (init exactEnv [] false { string := some c!"NSW = 1" }).isOk = true ∧ ({ string := some c!"NSW = 1" } : Sources).count = 1 := by
  decide +kernel

/-- C09 (Incar) is violated: a dictionary together with a file handler, or with a path, is accepted and the file content is
ignored. -/
theorem C09_incar_violation : ∃ s : Sources, s.count = 2 ∧
    init exactEnv [] false s = .ok [(c!"nsw", ⟨c!"nsw", .one (.int 1), none⟩)] :=
  ⟨{ dict := some [(c!"NSW", .one (.int 1))], path := some (some c!"NSW = 2\n") }, by decide, by decide +kernel⟩

end Verif.Incar
