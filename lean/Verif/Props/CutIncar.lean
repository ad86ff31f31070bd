import Verif.Props.IncarWrite
import Verif.Props.IncarMap
import Verif.Lemmas.Cut
/-! # INCAR files cut off (C98) -/
set_option autoImplicit false
namespace Verif.Incar
open Verif Verif.Utils Verif.IncarSpec

/-- A file object is read: the parser on its lines, then the check of the tags. -/
theorem init_handler (F : FloatEnv) (allowed : List Str) (vt : Bool) (t : Str) :
    init F allowed vt { handler := some t } =
      (fromList F (readlines t) >>= fun d => validate vt allowed d >>= fun _ => .ok d) := rfl

theorem keys_set_prefix (d : Entries) (k : Str) (v : Item) : d.keys <+: (d.set k v).keys := by
  induction d with
  | nil => exact List.nil_prefix
  | cons e d ih =>
    obtain ⟨a, b⟩ := e
    by_cases h : a = k
    · simp [Dict.set, Dict.keys, h]
    · obtain ⟨r, hr⟩ := ih
      refine ⟨r, ?_⟩
      simp only [Dict.keys] at hr
      simp [Dict.set, Dict.keys, h, ← hr]

theorem keys_foldl_prefix (is : List Item) : ∀ d : Entries, d.keys <+: (is.foldl (fun d i => Dict.set d i.tag i) d).keys := by
  induction is with
  | nil => intro d; exact List.prefix_refl _
  | cons i is ih => intro d; exact (keys_set_prefix d i.tag i).trans (ih _)

/-- The text `lines` assigns a value to the tag `t`. -/
def AssignedIn (F : FloatEnv) (lines : List Str) (t : Str) : Prop := ∃ a ∈ assigns lines, ∃ i, Assigns F a i ∧ i.tag = t

theorem lastFor_some_mem {t : Str} {is : List Item} {i : Item} (h : lastFor Item.tag t is = some i) : i ∈ is ∧ i.tag = t := by
  have := List.mem_of_getLast? h
  simpa using List.mem_filter.1 this

theorem assigned_of_item {F : FloatEnv} {lines : List Str} {is : List Item} (h : Res.mapM' (itemOf F) (assigns lines) = .ok is)
    {i : Item} (hi : i ∈ is) : AssignedIn F lines i.tag := by
  have h' := Res.mapM'_eq_ok.1 h
  clear h
  generalize he : assigns lines = L at h'
  have key : ∃ a ∈ L, itemOf F a = .ok i := by
    clear he
    induction h' with
    | nil => cases hi
    | cons hx _ ih =>
      rcases List.mem_cons.1 hi with rfl | hi
      · exact ⟨_, by simp, hx⟩
      · obtain ⟨a, ha, h2⟩ := ih hi
        exact ⟨a, by simp [ha], h2⟩
  obtain ⟨a, ha, h2⟩ := key
  exact ⟨a, he ▸ ha, i, (itemOf_ok_iff F a i).1 h2, rfl⟩

theorem item_of_assigned {F : FloatEnv} {L : List (Str × Option Str)} {is : List Item} (h : Res.mapM' (itemOf F) L = .ok is)
    {a : Str × Option Str} {j : Item} (ha : a ∈ L) (hj : itemOf F a = .ok j) : j ∈ is := by
  have h' := Res.mapM'_eq_ok.1 h
  clear h
  induction h' with
  | nil => cases ha
  | cons hx _ ih =>
    rcases List.mem_cons.1 ha with rfl | ha
    · rw [hx] at hj; cases hj; simp
    · exact List.mem_cons_of_mem _ (ih ha)

theorem fromList_append {F : FloatEnv} {A B : List Str} {d : Entries} (h : fromList F (A ++ B) = .ok d) :
    ∃ is1 is2, Res.mapM' (itemOf F) (assigns A) = .ok is1 ∧ Res.mapM' (itemOf F) (assigns B) = .ok is2 ∧
      d = (is1 ++ is2).foldl (fun d i => Dict.set d i.tag i) [] := by
  rw [fromList_eq, assigns_append, mapM'_append] at h
  obtain ⟨is, h1, h2⟩ := Res.bind_eq_ok.1 h
  obtain ⟨is1, h3, h1⟩ := Res.bind_eq_ok.1 h1
  obtain ⟨is2, h4, h1⟩ := Res.bind_eq_ok.1 h1
  cases h1
  cases h2
  exact ⟨is1, is2, h3, h4, rfl⟩

theorem lastFor_append (t : Str) (a b : List Item) : lastFor Item.tag t (a ++ b) = (lastFor Item.tag t b).or (lastFor Item.tag t a) := by
  unfold lastFor
  rw [List.filter_append, List.getLast?_append]

theorem lastFor_none {t : Str} {is : List Item} : lastFor Item.tag t is = none ↔ ∀ i ∈ is, i.tag ≠ t := by
  simp [lastFor]

/-- Reading more lines: the tags of the first ones stay, in their order, and keep their items unless assigned again. -/
theorem fromList_more {F : FloatEnv} {A B : List Str} {d : Entries} (h : fromList F (A ++ B) = .ok d) :
    ∃ d1, fromList F A = .ok d1 ∧ d1.keys <+: d.keys ∧
      (∀ t, ¬ AssignedIn F B t → d.get? t = d1.get? t) := by
  obtain ⟨is1, is2, h1, h2, rfl⟩ := fromList_append h
  have e1 : fromList F A = .ok (is1.foldl (fun d i => Dict.set d i.tag i) []) := by
    rw [fromList_eq, h1, Res.ok_bind]
  refine ⟨_, e1, ?_, ?_⟩
  · rw [List.foldl_append]
    exact keys_foldl_prefix is2 _
  · intro t ht
    rw [get?_foldl_set, get?_foldl_set, lastFor_append, lastFor_none.2, Option.none_or]
    intro i hi hit
    exact ht (hit ▸ assigned_of_item h2 hi)

theorem validate_sub {vt : Bool} {allowed : List Str} {d d' : Entries} (h : validate vt allowed d = .ok ()) (hk : ∀ k ∈ d'.keys, k ∈ d.keys) :
    validate vt allowed d' = .ok () := by
  unfold validate at h ⊢
  split
  · rfl
  · rename_i hv
    rw [if_neg hv] at h
    split at h
    · rename_i ha
      rw [if_pos]
      rw [List.all_eq_true] at ha ⊢
      exact fun k hk' => ha k (hk k hk')
    · cases h

/-- C98, partial: if the complete INCAR is accepted, so is the file cut off at the end of any line. Its tags are the first tags of the
complete file, each with the value (and comment) it has there unless it is assigned again behind the cut. Missing: cuts inside a line
(`C98_inside_partial`, `C98_violation_digit`) and tags assigned twice (`C98_violation_again`). -/
theorem C98_cut_partial (F : FloatEnv) (allowed : List Str) (vt : Bool) (p q : Str) (d : Entries) (hp : LineEnd p)
    (h : init F allowed vt { handler := some (p ++ q) } = .ok d) :
    ∃ d1, init F allowed vt { handler := some p } = .ok d1 ∧ d1.keys <+: d.keys ∧
      ∀ t, ¬ AssignedIn F (readlines q) t → d1.get? t = d.get? t := by
  rw [init_handler, readlines_lineEnd hp] at h
  obtain ⟨d0, h0, h⟩ := Res.bind_eq_ok.1 h
  obtain ⟨⟨⟩, hv, h⟩ := Res.bind_eq_ok.1 h
  cases h
  obtain ⟨d1, h1, hk, hg⟩ := fromList_more h0
  refine ⟨d1, ?_, hk, fun t ht => (hg t ht).symm⟩
  rw [init_handler, h1, Res.ok_bind, validate_sub hv (fun k hk' => hk.subset hk'), Res.ok_bind]

/-- C98, partial, for cuts at any character: if both files are accepted, they agree on every tag that is assigned neither in the last
line of the cut file (which may be incomplete) nor in the lines of the complete file from there on. Missing: the tags assigned in the incomplete last line, for which the claim is false (`C98_violation_*`). -/
theorem C98_inside_partial (F : FloatEnv) (allowed : List Str) (vt : Bool) (p q : Str) (d1 d : Entries)
    (h1 : init F allowed vt { handler := some p } = .ok d1) (h : init F allowed vt { handler := some (p ++ q) } = .ok d) :
    ∀ t, ¬ AssignedIn F ((readlines p).drop ((readlines p).length - 1)) t →
      ¬ AssignedIn F ((readlines (p ++ q)).drop ((readlines p).length - 1)) t → d1.get? t = d.get? t := by
  rw [init_handler] at h1 h
  obtain ⟨x1, e1, h1⟩ := Res.bind_eq_ok.1 h1
  obtain ⟨⟨⟩, _, h1⟩ := Res.bind_eq_ok.1 h1
  cases h1
  obtain ⟨x, e, h⟩ := Res.bind_eq_ok.1 h
  obtain ⟨⟨⟩, _, h⟩ := Res.bind_eq_ok.1 h
  cases h
  have htake : (readlines (p ++ q)).take ((readlines p).length - 1) = (readlines p).take ((readlines p).length - 1) := by
    rcases readlines_append p q with ⟨_, hr⟩ | ⟨A, l, r, B, _, _, h2, h3⟩
    · rw [hr, List.take_append_of_le_length (by omega)]
    · rw [h2, h3]; simp
  intro t t1 t2
  rw [← List.take_append_drop ((readlines p).length - 1) (readlines p)] at e1
  rw [← List.take_append_drop ((readlines p).length - 1) (readlines (p ++ q)), htake] at e
  obtain ⟨y, f1, -, g1⟩ := fromList_more e1
  obtain ⟨z, f2, -, g2⟩ := fromList_more e
  rw [f1] at f2
  cases f2
  rw [g1 t t1, g2 t t2]

theorem written_tags (F : FloatEnv) (b : Bool) (d : Entries) (hk : d.keys.Nodup)
    (hd : ∀ e ∈ d, e.1 = e.2.tag ∧ StorableItem F e.2) :
    ∃ is, Res.mapM' (itemOf F) (assigns (readlines (writeText b d))) = .ok is ∧ (is.map Item.tag).Nodup := by
  have hp := sortedEntries_perm d hk
  have hs : ∀ e ∈ sortedEntries d, e.1 = e.2.tag ∧ StorableItem F e.2 := fun e he => hd e (hp.mem_iff.1 he)
  have hsk : ((sortedEntries d).map Prod.fst).Nodup := (hp.map Prod.fst).nodup_iff.2 hk
  refine ⟨_, by rw [writeText_eq]; exact read_written F b _ hs, ?_⟩
  rw [List.map_map]
  have : (sortedEntries d).map (Item.tag ∘ fun e => kept b e.2) = (sortedEntries d).map Prod.fst :=
    List.map_congr_left fun e he => (hs e he).1.symm
  rw [this]
  exact hsk

/-- C98, partial, for files written by `write` and cut off at any character, as by a kill of the process (`C87_crash_partial`): if the
rest is accepted, every tag but the one on its last line has the value of the object. Missing: the tag on the last line, whose value may be cut (`C98_violation_*`). -/
theorem C98_written_partial (F : FloatEnv) (b : Bool) (d : Entries) (hk : d.keys.Nodup)
    (hd : ∀ e ∈ d, e.1 = e.2.tag ∧ StorableItem F e.2) (allowed : List Str) (vt : Bool) (p : Str) (hp : p <+: writeText b d)
    (d1 : Entries) (h1 : init F allowed vt { handler := some p } = .ok d1) :
    ∀ t v, ¬ AssignedIn F ((readlines p).drop ((readlines p).length - 1)) t → get d1 t = some v → get d t = some v := by
  obtain ⟨q, hq⟩ := hp
  obtain ⟨d', e', hv', -⟩ := C02_round_trip F b d hk hd
  obtain ⟨is, his, hnd⟩ := written_tags F b d hk hd
  intro t v ht hgt
  rw [← hq] at e' his
  rw [init_handler] at h1
  obtain ⟨x1, e1, h1⟩ := Res.bind_eq_ok.1 h1
  obtain ⟨⟨⟩, _, h1⟩ := Res.bind_eq_ok.1 h1
  cases h1
  have htake : (readlines (p ++ q)).take ((readlines p).length - 1) = (readlines p).take ((readlines p).length - 1) := by
    rcases readlines_append p q with ⟨_, hr⟩ | ⟨A, l, r, B, _, _, h2, h3⟩
    · rw [hr, List.take_append_of_le_length (by omega)]
    · rw [h2, h3]; simp
  rw [← List.take_append_drop ((readlines p).length - 1) (readlines p)] at e1
  rw [← List.take_append_drop ((readlines p).length - 1) (readlines (p ++ q)), htake] at e' his
  obtain ⟨y, f1, -, g1⟩ := fromList_more e1
  obtain ⟨z, f2, -, g2⟩ := fromList_more e'
  rw [f1] at f2
  cases f2
  have ha : ¬ AssignedIn F ((readlines (p ++ q)).drop ((readlines p).length - 1)) t := by
    rw [assigns_append, mapM'_append] at his
    obtain ⟨i1, m1, his⟩ := Res.bind_eq_ok.1 his
    obtain ⟨i2, m2, his⟩ := Res.bind_eq_ok.1 his
    cases his
    rw [List.map_append, List.nodup_append] at hnd
    have hy : (lastFor Item.tag t i1).isSome := by
      rw [fromList_eq, m1, Res.ok_bind] at f1
      cases f1
      simp only [get, g1 t ht, get?_foldl_set, Dict.get?_nil, Option.or_none] at hgt
      obtain ⟨i, hi, _⟩ := Option.map_eq_some_iff.1 hgt
      rw [hi]; rfl
    obtain ⟨i, hi⟩ := Option.isSome_iff_exists.1 hy
    obtain ⟨hi1, hit⟩ := lastFor_some_mem hi
    rintro ⟨a, ha, j, hj, hjt⟩
    have hjm : j ∈ i2 := by
      exact item_of_assigned m2 ha ((itemOf_ok_iff F a j).2 hj)
    exact hnd.2.2 t (List.mem_map.2 ⟨i, hi1, hit⟩) t (List.mem_map.2 ⟨j, hjm, hjt⟩) rfl
  rw [← hv' t]
  simp only [get] at hgt ⊢
  rw [g2 t ha, ← g1 t ht]
  exact hgt

/-- A file cut at the end of its second line. -/
example : ∃ d d1, init exactEnv [c!"encut", c!"ismear", c!"sigma"] true { handler := some c!"ENCUT = 500\nISMEAR = 0 # g\nSIGMA = 0.1; ENCUT = 300\n" } = .ok d ∧
    init exactEnv [c!"encut", c!"ismear", c!"sigma"] true { handler := some c!"ENCUT = 500\nISMEAR = 0 # g\n" } = .ok d1 ∧
    d1.keys = [c!"encut", c!"ismear"] ∧ d.keys = [c!"encut", c!"ismear", c!"sigma"] ∧
    get d1 c!"ismear" = some (.one (.int 0)) ∧ get d c!"ismear" = some (.one (.int 0)) :=
  ⟨_, _, rfl, rfl, by decide +kernel, by decide +kernel, by decide +kernel, by decide +kernel⟩

/-- C98 is false inside a line: without its last characters the file is accepted with another value. -/
theorem C98_violation_digit : ∃ (p q : Str) (d d1 : Entries), init exactEnv [c!"encut"] true { handler := some (p ++ q) } = .ok d ∧
    init exactEnv [c!"encut"] true { handler := some p } = .ok d1 ∧
    get d c!"encut" = some (.one (.int 500)) ∧ get d1 c!"encut" = some (.one (.int 5)) :=
  ⟨c!"ENCUT = 5", c!"00\n", _, _, rfl, rfl, by decide +kernel, by decide +kernel⟩

/-- C98 is false for a tag assigned twice: cut between the two assignments the file is accepted with the first value. -/
theorem C98_violation_again : ∃ (p q : Str) (d d1 : Entries), LineEnd p ∧
    init exactEnv [c!"encut"] true { handler := some (p ++ q) } = .ok d ∧
    init exactEnv [c!"encut"] true { handler := some p } = .ok d1 ∧
    get d c!"encut" = some (.one (.int 500)) ∧ get d1 c!"encut" = some (.one (.int 400)) :=
  ⟨c!"ENCUT = 400\n", c!"ENCUT = 500\n", _, _, .inr (by decide +kernel), rfl, rfl, by decide +kernel, by decide +kernel⟩

end Verif.Incar
