import Verif.Model.IncarHeap
import Mathlib.Data.List.Infix
/-!
# C105: INCAR objects are independent

The specification is a world without references: objects hold values, variables of the caller hold values.
-/
set_option autoImplicit false
namespace Verif.Incar
open Verif

/-! ### specification -/

/-- A world without references. -/
structure Plain where
  objects : List Entries := []
  vars : List Value := []

/-- The value of an argument. -/
def Plain.arg (p : Plain) : Arg → Value
  | .new v => v
  | .var i => (p.vars[i]?).getD .other

/-- What a call does if objects and variables hold values of their own. -/
def Plain.step (F : FloatEnv) (validateTags : Bool) (allowed : List Str) (p : Plain) : Call → Plain
  | .bind v => { p with vars := p.vars ++ [v] }
  | .fromText s => match init F allowed validateTags { s with dict := none } with
    | .ok e => { p with objects := p.objects ++ [e] }
    | _ => p
  | .fromDict items => match init F allowed validateTags { dict := some (items.map fun q => (q.1, p.arg q.2)) } with
    | .ok e => { p with objects := p.objects ++ [e] }
    | _ => p
  | .modify o tag v comment => match p.objects[o]? with
    | some d => match modify F d tag (p.arg v) comment with
      | .ok e => { p with objects := p.objects.set o e }
      | _ => p
    | none => p
  | .delete o tag => match p.objects[o]? with
    | some d => { p with objects := p.objects.set o (delete d tag) }
    | none => p
  | .get o tag => match p.objects[o]? with
    | some d => { p with vars := p.vars ++ [(Incar.get d tag).getD .other] }
    | none => p
  | .setItem x k s => match p.vars[x]? with
    | some (.list l) => { p with vars := p.vars.set x (.list (l.set k s)) }
    | _ => p

/-- A program. -/
def Plain.run (F : FloatEnv) (validateTags : Bool) (allowed : List Str) (p : Plain) (cs : List Call) : Plain :=
  cs.foldl (Plain.step F validateTags allowed) p

/-- The caller changes no list in place. -/
def NoSetItem : Call → Prop
  | .setItem .. => False
  | _ => True

/-! ### references that exist -/

/-- The reference points to a list in memory, if to a list at all. -/
def Valid (h : Lists) : IRef → Prop
  | .list a => a < h.length
  | _ => True

/-- All references of the entries are valid. -/
def ValidE (h : Lists) (d : EntriesH) : Prop := ∀ p ∈ d, Valid h p.2.value

theorem Valid.mono {h h' : Lists} (x : h <+: h') {r : IRef} (v : Valid h r) : Valid h' r := by
  cases r with
  | list a => exact Nat.lt_of_lt_of_le v x.length_le
  | _ => trivial

theorem val_ext {h h' : Lists} (x : h <+: h') {r : IRef} (v : Valid h r) : h'.val r = h.val r := by
  cases r with
  | list a =>
    obtain ⟨t, rfl⟩ := x
    simp only [Lists.val, List.getElem?_append_left v]
  | _ => rfl

theorem view_ext {h h' : Lists} (x : h <+: h') {d : EntriesH} (v : ValidE h d) : view h' d = view h d := by
  unfold view
  refine List.map_congr_left fun p hp => ?_
  simp only [viewItem, val_ext x (v p hp)]

theorem alloc_spec (h : Lists) (v : Value) : h <+: (h.alloc v).1 ∧ Valid (h.alloc v).1 (h.alloc v).2 ∧ (h.alloc v).1.val (h.alloc v).2 = v := by
  cases v with
  | one s => exact ⟨List.prefix_refl _, trivial, rfl⟩
  | other => exact ⟨List.prefix_refl _, trivial, rfl⟩
  | list l =>
    refine ⟨List.prefix_append _ _, ?_, ?_⟩
    · simp [Lists.alloc, Valid]
    · simp [Lists.alloc, Lists.val]

theorem evalArg_spec {w : World} (hv : ∀ r ∈ w.vars, Valid w.lists r) {h : Lists} (x : w.lists <+: h) (a : Arg) :
    h <+: (evalArg w h a).1 ∧ Valid (evalArg w h a).1 (evalArg w h a).2 ∧
      (evalArg w h a).1.val (evalArg w h a).2 = Plain.arg ⟨[], w.vars.map w.lists.val⟩ a := by
  cases a with
  | new v => exact alloc_spec h v
  | var i =>
    refine ⟨List.prefix_refl _, ?_, ?_⟩
    · simp only [evalArg]
      cases hi : w.vars[i]? with
      | none => trivial
      | some r => exact (hv r (List.mem_of_getElem? hi)).mono x
    · simp only [evalArg, Plain.arg, List.getElem?_map]
      cases hi : w.vars[i]? with
      | none => rfl
      | some r => exact val_ext x (hv r (List.mem_of_getElem? hi))

theorem evalArgs_spec {w : World} (hv : ∀ r ∈ w.vars, Valid w.lists r) {h : Lists} (x : w.lists <+: h) (items : List (Str × Arg)) :
    h <+: (evalArgs w h items).1 ∧ (∀ q ∈ (evalArgs w h items).2, Valid (evalArgs w h items).1 q.2) ∧
      (evalArgs w h items).2.map (fun q => (q.1, (evalArgs w h items).1.val q.2)) =
        items.map fun q => (q.1, Plain.arg ⟨[], w.vars.map w.lists.val⟩ q.2) := by
  induction items generalizing h with
  | nil => exact ⟨List.prefix_refl _, by simp [evalArgs], rfl⟩
  | cons q r ih =>
    obtain ⟨k, a⟩ := q
    obtain ⟨a1, a2, a3⟩ := evalArg_spec hv x a
    obtain ⟨b1, b2, b3⟩ := ih (x.trans a1)
    refine ⟨a1.trans b1, ?_, ?_⟩
    · intro q hq
      rcases List.mem_cons.1 hq with rfl | hq
      · exact a2.mono b1
      · exact b2 q hq
    · simp only [evalArgs, List.map_cons, b3]
      rw [val_ext b1 a2, a3]

theorem cleanEntryH_spec (F : FloatEnv) {h : Lists} {r : IRef} (hr : Valid h r) (tag : Str) (comment : Option Str) :
    match cleanEntry F tag (h.val r) comment with
    | .ok item => ∃ h' i, cleanEntryH F h tag r comment = .ok (h', i) ∧ h <+: h' ∧ Valid h' i.value ∧ viewItem h' i = item
    | .exit c => cleanEntryH F h tag r comment = .exit c
    | .raise e => cleanEntryH F h tag r comment = .raise e := by
  cases hc : cleanEntry F tag (h.val r) comment with
  | exit c => simp only [cleanEntryH, hc, Res.exit_bind]
  | raise e => simp only [cleanEntryH, hc, Res.raise_bind]
  | ok item =>
    simp only [cleanEntryH, hc, Res.ok_bind]
    cases r with
    | list a =>
      refine ⟨h, _, rfl, List.prefix_refl _, hr, ?_⟩
      have e : item.value = h.val (.list a) := by
        simp only [cleanEntry, Lists.val] at hc
        cases hw : words tag with
        | nil => rw [hw] at hc; cases hc
        | cons t ts => rw [hw] at hc; cases hc; rfl
      show Item.mk item.tag (h.val (.list a)) item.comment = item
      rw [← e]
    | scalar s => obtain ⟨a1, a2, a3⟩ := alloc_spec h item.value; exact ⟨_, _, rfl, a1, a2, by simp only [viewItem, a3]⟩
    | other => obtain ⟨a1, a2, a3⟩ := alloc_spec h item.value; exact ⟨_, _, rfl, a1, a2, by simp only [viewItem, a3]⟩

theorem dictItemH_spec (F : FloatEnv) {h : Lists} {r : IRef} (hr : Valid h r) (tag : Str) :
    match dictItem F tag (h.val r) with
    | .ok item => ∃ h' i, dictItemH F h tag r = .ok (h', i) ∧ h <+: h' ∧ Valid h' i.value ∧ viewItem h' i = item
    | .exit c => dictItemH F h tag r = .exit c
    | .raise e => dictItemH F h tag r = .raise e := by
  cases r with
  | list a => exact cleanEntryH_spec F hr tag none
  | other => exact cleanEntryH_spec F hr tag none
  | scalar s => cases s with
    | str s =>
      simp only [dictItem, dictItemH, Lists.val]
      rcases splitOn '#' s with _ | ⟨a, _ | ⟨b, _ | ⟨c, t⟩⟩⟩
      · rfl
      · exact cleanEntryH_spec F hr tag none
      · exact cleanEntryH_spec F (r := .scalar (.str a)) trivial tag (some b)
      · rfl
    | int i => exact cleanEntryH_spec F hr tag none
    | float f => exact cleanEntryH_spec F hr tag none
    | bool b => exact cleanEntryH_spec F hr tag none

theorem view_set (h : Lists) (d : EntriesH) (k : Str) (i : ItemH) : view h (d.set k i) = (view h d).set k (viewItem h i) := by
  induction d with
  | nil => rfl
  | cons p t ih =>
    unfold view at ih ⊢
    by_cases hk : p.1 = k
    · simp [Dict.set, hk]
    · simp only [Dict.set, hk, if_false, List.map_cons, ih]

theorem view_del (h : Lists) (d : EntriesH) (k : Str) : view h (d.del k) = (view h d).del k := by
  unfold view Dict.del
  rw [List.filter_map]
  rfl

theorem view_get (h : Lists) (d : EntriesH) (k : Str) : (view h d).get? k = (d.get? k).map (viewItem h) := by
  induction d with
  | nil => rfl
  | cons p t ih =>
    unfold view at ih ⊢
    by_cases hk : p.1 = k
    · simp [Dict.get?, hk]
    · simp only [Dict.get?, hk, if_false, List.map_cons]; exact ih

theorem mem_of_get? {d : EntriesH} {k : Str} {i : ItemH} (h : d.get? k = some i) : (k, i) ∈ d := by
  induction d with
  | nil => cases h
  | cons p t ih =>
    obtain ⟨k', i'⟩ := p
    unfold Dict.get? at h
    split at h
    · next e => cases h; cases e; exact List.mem_cons_self ..
    · exact List.mem_cons_of_mem _ (ih h)

theorem mem_set {d : EntriesH} {k : Str} {i : ItemH} {p : Str × ItemH} (h : p ∈ d.set k i) : p ∈ d ∨ p.2 = i := by
  induction d with
  | nil => rcases List.mem_singleton.1 h with rfl; exact .inr rfl
  | cons q t ih =>
    unfold Dict.set at h
    split at h
    · rcases List.mem_cons.1 h with rfl | h
      · exact .inr rfl
      · exact .inl (List.mem_cons_of_mem _ h)
    · rcases List.mem_cons.1 h with rfl | h
      · exact .inl (List.mem_cons_self ..)
      · exact (ih h).imp (List.mem_cons_of_mem _) id

theorem validE_set {h : Lists} {d : EntriesH} (v : ValidE h d) {k : Str} {i : ItemH} (hi : Valid h i.value) : ValidE h (d.set k i) := by
  intro p hp
  rcases mem_set hp with hp | hp
  · exact v p hp
  · exact hp ▸ hi

theorem ValidE.mono {h h' : Lists} (x : h <+: h') {d : EntriesH} (v : ValidE h d) : ValidE h' d := fun p hp => (v p hp).mono x

theorem fromDictH_spec (F : FloatEnv) {h : Lists} (items : List (Str × IRef)) (hi : ∀ q ∈ items, Valid h q.2) :
    match fromDict F (items.map fun q => (q.1, h.val q.2)) with
    | .ok e => ∃ h' d, fromDictH F h items = .ok (h', d) ∧ h <+: h' ∧ ValidE h' d ∧ view h' d = e
    | .exit c => fromDictH F h items = .exit c
    | .raise e => fromDictH F h items = .raise e := by
  have key : ∀ (items : List (Str × IRef)) (h0 h : Lists) (d : EntriesH) (e : Entries), h0 <+: h → (∀ q ∈ items, Valid h0 q.2) → ValidE h d →
      view h d = e →
      match Res.foldlM' (fun d (p : Str × Value) => match dictItem F p.1 p.2 with
        | .ok item => .ok (d.set item.tag item)
        | .exit c => .exit c
        | .raise e => .raise e) e (items.map fun q => (q.1, h0.val q.2)) with
      | .ok e => ∃ h' d', Res.foldlM' (fun (s : Lists × EntriesH) (p : Str × IRef) =>
          dictItemH F s.1 p.1 p.2 >>= fun r => .ok (r.1, s.2.set r.2.tag r.2)) (h, d) items = .ok (h', d') ∧ h <+: h' ∧ ValidE h' d' ∧ view h' d' = e
      | .exit c => Res.foldlM' (fun (s : Lists × EntriesH) (p : Str × IRef) =>
          dictItemH F s.1 p.1 p.2 >>= fun r => .ok (r.1, s.2.set r.2.tag r.2)) (h, d) items = .exit c
      | .raise x => Res.foldlM' (fun (s : Lists × EntriesH) (p : Str × IRef) =>
          dictItemH F s.1 p.1 p.2 >>= fun r => .ok (r.1, s.2.set r.2.tag r.2)) (h, d) items = .raise x := by
    intro items
    induction items with
    | nil => intro h0 h d e x hi hv he; exact ⟨h, d, rfl, List.prefix_refl _, hv, he⟩
    | cons q r ih =>
      intro h0 h d e x hi hv he
      have hq := hi q (List.mem_cons_self ..)
      have sp := dictItemH_spec F (hq.mono x) q.1
      rw [val_ext x hq] at sp
      simp only [List.map_cons, Res.foldlM']
      cases hd : dictItem F q.1 (h0.val q.2) with
      | exit c => rw [hd] at sp; simp only [sp, Res.exit_bind]
      | raise c => rw [hd] at sp; simp only [sp, Res.raise_bind]
      | ok item =>
        rw [hd] at sp
        obtain ⟨h', i, hs, x', hvi, hw⟩ := sp
        have ht : i.tag = item.tag := by rw [← hw]; rfl
        have step := ih h0 h' (d.set i.tag i) (e.set item.tag item) (x.trans x') (fun q hq => hi q (List.mem_cons_of_mem _ hq))
          (validE_set (hv.mono x') hvi) (by rw [view_set, view_ext x' hv, he, hw, ht])
        simp only [hs, Res.ok_bind]
        revert step
        generalize Res.foldlM' _ (e.set item.tag item) _ = R
        intro step
        cases R with
        | ok e' => obtain ⟨h'', d', a, b, c⟩ := step; exact ⟨h'', d', a, x'.trans b, c⟩
        | exit c => exact step
        | raise c => exact step
  exact key items h h [] [] (List.prefix_refl _) hi (by intro p hp; cases hp) rfl

theorem storeAll_spec (h : Lists) (e : Entries) : h <+: (storeAll h e).1 ∧ ValidE (storeAll h e).1 (storeAll h e).2 ∧ view (storeAll h e).1 (storeAll h e).2 = e := by
  induction e generalizing h with
  | nil => exact ⟨List.prefix_refl _, (fun p hp => by cases hp), rfl⟩
  | cons p r ih =>
    obtain ⟨k, i⟩ := p
    obtain ⟨a1, a2, a3⟩ := alloc_spec h i.value
    obtain ⟨b1, b2, b3⟩ := ih (h.alloc i.value).1
    refine ⟨a1.trans b1, ?_, ?_⟩
    · intro q hq
      rcases List.mem_cons.1 hq with rfl | hq
      · exact a2.mono b1
      · exact b2 q hq
    · show (k, viewItem (storeAll (h.alloc i.value).1 r).1 ⟨i.tag, (h.alloc i.value).2, i.comment⟩) ::
        view (storeAll (h.alloc i.value).1 r).1 (storeAll (h.alloc i.value).1 r).2 = _
      rw [b3]
      simp only [viewItem]
      rw [val_ext b1 a2, a3]

/-! ### simulation -/

/-- The world with references looks like the world without. -/
structure Sim (w : World) (p : Plain) : Prop where
  objects : ∀ d ∈ w.objects, ValidE w.lists d
  vars : ∀ r ∈ w.vars, Valid w.lists r
  views : p.objects = w.views
  values : p.vars = w.vars.map w.lists.val

/-- More memory changes nothing. -/
theorem Sim.ext {w : World} {p : Plain} (s : Sim w p) {h : Lists} (x : w.lists <+: h) : Sim ⟨h, w.objects, w.vars⟩ p := by
  refine ⟨fun d hd => (s.objects d hd).mono x, fun r hr => (s.vars r hr).mono x, ?_, ?_⟩
  · rw [s.views]
    exact List.map_congr_left fun d hd => (view_ext x (s.objects d hd)).symm
  · rw [s.values]
    exact List.map_congr_left fun r hr => (val_ext x (s.vars r hr)).symm

theorem Sim.addObject {w : World} {p : Plain} (s : Sim w p) {d : EntriesH} (hd : ValidE w.lists d) :
    Sim ⟨w.lists, w.objects ++ [d], w.vars⟩ ⟨p.objects ++ [view w.lists d], p.vars⟩ := by
  refine ⟨?_, s.vars, ?_, s.values⟩
  · intro e he
    rcases List.mem_append.1 he with he | he
    · exact s.objects e he
    · rw [List.mem_singleton.1 he]; exact hd
  · show p.objects ++ _ = List.map _ _
    rw [s.views, List.map_append]; rfl

theorem Sim.addVar {w : World} {p : Plain} (s : Sim w p) {r : IRef} (hr : Valid w.lists r) :
    Sim ⟨w.lists, w.objects, w.vars ++ [r]⟩ ⟨p.objects, p.vars ++ [w.lists.val r]⟩ := by
  refine ⟨s.objects, ?_, s.views, ?_⟩
  · intro e he
    rcases List.mem_append.1 he with he | he
    · exact s.vars e he
    · rw [List.mem_singleton.1 he]; exact hr
  · show p.vars ++ _ = List.map _ _
    rw [s.values, List.map_append]; rfl

theorem Sim.setObject {w : World} {p : Plain} (s : Sim w p) (o : Nat) {d : EntriesH} (hd : ValidE w.lists d) :
    Sim ⟨w.lists, w.objects.set o d, w.vars⟩ ⟨p.objects.set o (view w.lists d), p.vars⟩ := by
  refine ⟨?_, s.vars, ?_, s.values⟩
  · intro e he
    rcases List.mem_or_eq_of_mem_set he with he | rfl
    · exact s.objects e he
    · exact hd
  · show List.set _ _ _ = List.map _ _
    rw [s.views, List.map_set]; rfl

theorem Sim.object {w : World} {p : Plain} (s : Sim w p) (o : Nat) : p.objects[o]? = (w.objects[o]?).map (view w.lists) := by
  rw [s.views, World.views, List.getElem?_map]

theorem Sim.arg {w : World} {p : Plain} (s : Sim w p) (a : Arg) : p.arg a = Plain.arg ⟨[], w.vars.map w.lists.val⟩ a := by
  cases a with
  | new v => rfl
  | var i => simp only [Plain.arg, s.values]

theorem step_sim (F : FloatEnv) (vt : Bool) (allowed : List Str) {w : World} {p : Plain} (s : Sim w p) (c : Call) (hc : NoSetItem c) :
    Sim (w.step F vt allowed c) (p.step F vt allowed c) := by
  cases c with
  | setItem x k t => exact absurd hc id
  | bind v =>
    obtain ⟨a1, a2, a3⟩ := alloc_spec w.lists v
    have := (s.ext a1).addVar a2
    rw [show Lists.val (World.lists ⟨(w.lists.alloc v).1, w.objects, w.vars⟩) (w.lists.alloc v).2 = v from a3] at this
    exact this
  | fromText src =>
    simp only [World.step, Plain.step]
    cases init F allowed vt { src with dict := none } with
    | ok e =>
      obtain ⟨a1, a2, a3⟩ := storeAll_spec w.lists e
      have := (s.ext a1).addObject a2
      rw [show view (World.lists ⟨(storeAll w.lists e).1, w.objects, w.vars⟩) (storeAll w.lists e).2 = e from a3] at this
      exact this
    | exit c => exact s
    | raise x => exact s
  | fromDict items =>
    obtain ⟨a1, a2, a3⟩ := evalArgs_spec s.vars (List.prefix_refl _) items
    have sp := fromDictH_spec F _ a2
    rw [a3] at sp
    have e : (items.map fun q => (q.1, p.arg q.2)) = items.map fun q => (q.1, Plain.arg ⟨[], w.vars.map w.lists.val⟩ q.2) :=
      List.map_congr_left fun q _ => by rw [s.arg]
    simp only [World.step, Plain.step, e]
    have hi : init F allowed vt { dict := some (items.map fun q => (q.1, Plain.arg ⟨[], w.vars.map w.lists.val⟩ q.2)) } =
        (fromDict F (items.map fun q => (q.1, Plain.arg ⟨[], w.vars.map w.lists.val⟩ q.2)) >>= fun entries =>
          validate vt allowed entries >>= fun _ => .ok entries) := rfl
    rw [hi]
    cases hf : fromDict F (items.map fun q => (q.1, Plain.arg ⟨[], w.vars.map w.lists.val⟩ q.2)) with
    | exit c => rw [hf] at sp; simp only [sp, checked, Res.exit_bind]; exact s
    | raise x => rw [hf] at sp; simp only [sp, checked, Res.raise_bind]; exact s
    | ok en =>
      rw [hf] at sp
      obtain ⟨h', d, hs, x', hv, hw⟩ := sp
      simp only [hs, checked, Res.ok_bind, hw]
      cases validate vt allowed en with
      | exit c => exact s
      | raise x => exact s
      | ok _ =>
        have := (s.ext (a1.trans x')).addObject hv
        rw [show view (World.lists ⟨h', w.objects, w.vars⟩) d = en from hw] at this
        exact this
  | modify o tag v comment =>
    obtain ⟨a1, a2, a3⟩ := evalArg_spec s.vars (List.prefix_refl _) v
    simp only [World.step, Plain.step, s.object o]
    cases ho : w.objects[o]? with
    | none => exact s
    | some d =>
      have sp := cleanEntryH_spec F a2 tag comment
      rw [a3, ← s.arg] at sp
      simp only [Option.map_some, modify]
      cases hc : cleanEntry F tag (p.arg v) comment with
      | exit c => rw [hc] at sp; simp only [sp]; exact s
      | raise c => rw [hc] at sp; simp only [sp]; exact s
      | ok item =>
        rw [hc] at sp
        obtain ⟨h', i, hs, x', hv, hw⟩ := sp
        have hd := s.objects d (List.mem_of_getElem? ho)
        have x := a1.trans x'
        have := (s.ext x).setObject o (validE_set (hd.mono x) hv (k := i.tag))
        rw [show view (World.lists ⟨h', w.objects, w.vars⟩) (d.set i.tag i) = (view w.lists d).set item.tag item by
          rw [view_set, view_ext x hd, hw, show i.tag = item.tag by rw [← hw]; rfl]] at this
        simp only [hs]
        exact this
  | delete o tag =>
    simp only [World.step, Plain.step, s.object o]
    cases ho : w.objects[o]? with
    | none => exact s
    | some d =>
      have hd := s.objects d (List.mem_of_getElem? ho)
      have := s.setObject o (d := d.del tag) fun p hp => hd p (List.mem_of_mem_filter hp)
      rw [view_del] at this
      exact this
  | get o tag =>
    simp only [World.step, Plain.step, s.object o]
    cases ho : w.objects[o]? with
    | none => exact s
    | some d =>
      have hd := s.objects d (List.mem_of_getElem? ho)
      simp only [Option.map_some, Incar.get, view_get]
      cases hg : d.get? tag with
      | none => exact s.addVar (r := .other) trivial
      | some i => exact s.addVar (hd (tag, i) (mem_of_get? hg))

/-- C105, for every program of constructions, `modify`, `delete`, `get` and `get_dict` on any number of objects, whatever dictionaries, lists and
values are given to several of them or taken from one and given to another: the objects hold what they would hold if every value was a
value of its own.  Missing for the full claim (and false, `C105_violation`): changes the caller makes in place to a list. -/
theorem C105_independent_partial (F : FloatEnv) (vt : Bool) (allowed : List Str) (cs : List Call) (h : ∀ c ∈ cs, NoSetItem c) :
    (World.run F vt allowed {} cs).views = (Plain.run F vt allowed {} cs).objects := by
  have key : ∀ (cs : List Call) (w : World) (p : Plain), (∀ c ∈ cs, NoSetItem c) → Sim w p →
      Sim (World.run F vt allowed w cs) (Plain.run F vt allowed p cs) := by
    intro cs
    induction cs with
    | nil => intro w p _ s; exact s
    | cons c cs ih => intro w p h s; exact ih _ _ (fun c hc => h c (List.mem_cons_of_mem _ hc)) (step_sim F vt allowed s c (h c (List.mem_cons_self ..)))
  exact (key cs {} {} h ⟨(fun d hd => by cases hd), (fun r hr => by cases hr), rfl, rfl⟩).views.symm

/-- The object a call changes, if any. -/
def target : Call → Option Nat
  | .modify o .. => some o
  | .delete o _ => some o
  | _ => none

theorem plain_other_objects (F : FloatEnv) (vt : Bool) (allowed : List Str) (p : Plain) (c : Call) {o : Nat} (ho : o < p.objects.length)
    (hc : target c ≠ some o) : (p.step F vt allowed c).objects[o]? = p.objects[o]? := by
  have hset : ∀ {o' : Nat} {e : Entries}, target c = some o' → (p.objects.set o' e)[o]? = p.objects[o]? := fun ht =>
    List.getElem?_set_ne fun e => hc (by rw [ht, e])
  cases c with
  | bind v => rfl
  | fromText s =>
    simp only [Plain.step]
    split
    · exact List.getElem?_append_left ho
    · rfl
  | fromDict s =>
    simp only [Plain.step]
    split
    · exact List.getElem?_append_left ho
    · rfl
  | modify o' tag v comment =>
    simp only [Plain.step]
    split
    · split
      · exact hset rfl
      · rfl
    · rfl
  | delete o' tag =>
    simp only [Plain.step]
    split
    · exact hset rfl
    · rfl
  | get o' tag => simp only [Plain.step]; split <;> rfl
  | setItem x k s => simp only [Plain.step]; split <;> rfl

/-- C105: after any such program, a further call changes no object but the one it is made on. Missing: objects that share a list given by the caller (`C105_violation`). -/
theorem C105_other_objects_partial (F : FloatEnv) (vt : Bool) (allowed : List Str) (cs : List Call) (h : ∀ c ∈ cs, NoSetItem c) (c : Call) (hn : NoSetItem c)
    {o : Nat} (ho : o < (World.run F vt allowed {} cs).objects.length) (hc : target c ≠ some o) :
    (World.run F vt allowed {} (cs ++ [c])).views[o]? = (World.run F vt allowed {} cs).views[o]? := by
  have e := C105_independent_partial F vt allowed cs h
  rw [C105_independent_partial F vt allowed (cs ++ [c]) (by
    intro x hx
    rcases List.mem_append.1 hx with hx | hx
    · exact h x hx
    · rw [List.mem_singleton.1 hx]; exact hn), e]
  have : (Plain.run F vt allowed {} (cs ++ [c])) = (Plain.run F vt allowed {} cs).step F vt allowed c := by
    simp only [Plain.run, List.foldl_append, List.foldl_cons, List.foldl_nil]
  rw [this]
  refine plain_other_objects F vt allowed _ c ?_ hc
  rw [← e]
  simpa only [World.views, List.length_map] using ho

/-- The claim C105 is false for lists the caller changes in place: two objects are given the list `l` for a tag; then the caller assigns to one place
of the list, and both objects hold the changed list, without any call on them (and without any check of the new element). -/
theorem C105_violation (F : FloatEnv) (allowed : List Str) (l : List Scalar) (k : Nat) (s : Scalar) :
    let before : List Call := [.bind (.list l), .fromDict [(c!"rwigs", .var 0)], .fromDict [(c!"rwigs", .var 0)]]
    (World.run F false allowed {} before).views = [[(c!"rwigs", ⟨c!"rwigs", .list l, none⟩)], [(c!"rwigs", ⟨c!"rwigs", .list l, none⟩)]] ∧
    (World.run F false allowed {} (before ++ [.setItem 0 k s])).views =
      [[(c!"rwigs", ⟨c!"rwigs", .list (l.set k s), none⟩)], [(c!"rwigs", ⟨c!"rwigs", .list (l.set k s), none⟩)]] := by
  constructor <;> rfl

/-- The same for a list handed out by `get`: the caller changes it and the object holds the changed list. -/
theorem C105_violation_get (F : FloatEnv) (allowed : List Str) (l : List Scalar) (k : Nat) (s : Scalar) :
    (World.run F false allowed {} [.fromDict [(c!"rwigs", .new (.list l))], .get 0 c!"rwigs", .setItem 0 k s]).views =
      [[(c!"rwigs", ⟨c!"rwigs", .list (l.set k s), none⟩)]] := rfl

/-- The list a caller's variable refers to is not the value of any entry of any object. -/
def Private (w : World) (x : Nat) : Prop := ∀ a, w.vars[x]? = some (.list a) → ∀ d ∈ w.objects, ∀ p ∈ d, p.2.value ≠ .list a

/-- A list that no object holds can be changed at will. -/
theorem C105_private_list (F : FloatEnv) (vt : Bool) (allowed : List Str) (w : World) (x k : Nat) (s : Scalar) (h : Private w x) :
    (w.step F vt allowed (.setItem x k s)).views = w.views := by
  simp only [World.step]
  split
  · next a ha =>
    refine List.map_congr_left fun d hd => List.map_congr_left fun p hp => ?_
    have hne := h a ha d hd p hp
    simp only [viewItem]
    cases hv : p.2.value with
    | list b =>
      have hab : a ≠ b := fun e => hne (by rw [hv, e])
      simp [Lists.val, List.getElem?_modify, hab]
    | _ => rfl
  · rfl

/-- A program as in `C105_independent_partial`, with a shared list and a list taken from one object and given to another. -/
example : ∀ c ∈ ([.bind (.list [.int 1, .int 2]), .fromDict [(c!"rwigs", .var 0)], .get 0 c!"rwigs", .fromText { string := some c!"ENCUT = 200" },
    .modify 1 c!"ropt" (.var 1) none, .delete 0 c!"rwigs"] : List Call), NoSetItem c := by
  intro c hc
  simp only [List.mem_cons, List.not_mem_nil, or_false] at hc
  rcases hc with rfl | rfl | rfl | rfl | rfl | rfl <;> trivial

end Verif.Incar
