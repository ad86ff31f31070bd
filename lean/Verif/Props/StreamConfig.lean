import Verif.Props.StreamApi
/-!
# C117: what a `Stream` says it looks for (`kinds`, `configured_streams`, `str()`)

`kinds` lists the supported kinds of the configuration in force, each once, in order of first appearance; `configured_streams` lists,
under the lower-case plural of each kind, the streams of that kind: first the ordinary ones, then the inverse ones, each group in the
order of the configuration. The latter is false if two kinds differ in case only: the inverse streams are then listed once per spelling.
-/
set_option autoImplicit false
namespace Verif.Stream
open Verif
variable {Rx : Type}

/-! ### specification -/

/-- Specification: the entries in force, in order: the standard ones in their places, replaced by the user's entry of the same name, then
the other entries of the user. -/
def inForce (dflt : Config Rx) (user : Option (Config Rx)) : List (Str × Conf Rx) :=
  match user with
  | none => dflt
  | some u => dflt.map (fun p => (p.1, (u.get? p.1).getD p.2)) ++ u.filter fun p => !decide (p.1 ∈ dflt.map Prod.fst)

/-- Specification: the kind an entry names, if it is a supported one. -/
def supportedKind (p : Str × Conf Rx) : Option Str :=
  match p.2.get? c!"kind" with
  | some (.str k) => if upper k = c!"ERROR" ∨ upper k = c!"WARNING" then some k else none
  | _ => none

/-- Specification: every element once, at its first place. -/
def firsts : List Str → List Str
  | [] => []
  | k :: r => k :: (firsts r).filter fun x => !decide (x = k)

/-- Specification: the key of a kind in `configured_streams`. -/
def plural (kind : Str) : Str := lower kind ++ ['s']

/-- Specification: those of a list of streams that have the kind and are inverse or not. -/
def select (kind : Str) (inverse : Bool) (ts : List (Trigger Rx)) : List (Trigger Rx) :=
  ts.filter fun t => decide (t.kind = kind) && decide (t.inverse = inverse)

/-! ### the configuration in force -/

theorem set_of_mem (d : Config Rx) (s : Str) (c : Conf Rx) (hd : d.keys.Nodup) (h : s ∈ d.keys) :
    d.set s c = d.map fun p => if p.1 = s then (p.1, c) else p := by
  induction d with
  | nil => simp [Dict.keys] at h
  | cons p ps ih =>
    obtain ⟨a, b⟩ := p
    have hn : a ∉ Dict.keys ps ∧ (Dict.keys ps).Nodup := by simpa [Dict.keys] using hd
    simp only [Dict.set, List.map_cons]
    split
    · rename_i e
      subst e
      congr 1
      symm
      rw [List.map_congr_left (g := id), List.map_id]
      intro q hq
      rw [if_neg]
      · rfl
      · intro e
        exact hn.1 (e ▸ List.mem_map.2 ⟨q, hq, rfl⟩)
    · rename_i e
      rw [ih hn.2]
      have : s ∈ a :: Dict.keys ps := by simpa [Dict.keys] using h
      rcases List.mem_cons.1 this with r | r
      · exact absurd r.symm e
      · exact r

theorem set_of_not_mem (d : Config Rx) (s : Str) (c : Conf Rx) (h : s ∉ d.keys) : d.set s c = d ++ [(s, c)] := by
  induction d with
  | nil => rfl
  | cons p ps ih =>
    obtain ⟨a, b⟩ := p
    have hn : ¬ s = a ∧ s ∉ Dict.keys ps := by simpa [Dict.keys] using h
    simp only [Dict.set]
    rw [if_neg (fun e => hn.1 e.symm), ih hn.2]
    rfl

theorem get?_none_of_not_mem (u : Config Rx) (s : Str) (h : s ∉ u.keys) : u.get? s = none := by
  cases hg : u.get? s with
  | none => rfl
  | some v => exact absurd ((Dict.mem_keys_iff u s).2 (by rw [hg]; rfl)) h

theorem update_eq (d u : Config Rx) (hd : d.keys.Nodup) (hu : u.keys.Nodup) :
    update d u = d.map (fun p => (p.1, (u.get? p.1).getD p.2)) ++ u.filter fun p => !decide (p.1 ∈ d.map Prod.fst) := by
  unfold update
  induction u generalizing d with
  | nil => simp [Dict.get?]
  | cons p ps ih =>
    obtain ⟨s, c⟩ := p
    have hn : s ∉ Dict.keys ps ∧ (Dict.keys ps).Nodup := by simpa [Dict.keys] using hu
    rw [List.foldl_cons, ih _ (Dict.keys_set_nodup _ _ _ hd) hn.2]
    by_cases hs : s ∈ d.keys
    · have hkeys : (d.map fun p => if p.1 = s then (p.1, c) else p).map Prod.fst = d.map Prod.fst := by
        rw [List.map_map]
        apply List.map_congr_left
        intro q _
        simp only [Function.comp]
        split <;> rfl
      simp only [set_of_mem d s c hd hs, hkeys]
      congr 1
      · rw [List.map_map]
        apply List.map_congr_left
        intro q _
        simp only [Function.comp, Dict.get?]
        by_cases e : q.1 = s
        · simp only [e, if_true]
          rw [get?_none_of_not_mem ps s hn.1]
          rfl
        · rw [if_neg e, if_neg (fun h => e h.symm)]
      · rw [List.filter_cons, if_neg]
        have : s ∈ d.map Prod.fst := hs
        simp only [Bool.not_eq_true', decide_eq_false_iff_not, not_not]
        exact this
    · simp only [set_of_not_mem d s c hs]
      rw [List.map_append, List.filter_cons, if_pos (by simpa [Dict.keys] using hs), List.append_assoc]
      congr 1
      · apply List.map_congr_left
        intro q hq
        simp only [Dict.get?]
        rw [if_neg]
        intro e
        exact hs (e ▸ List.mem_map.2 ⟨q, hq, rfl⟩)
      · simp only [List.map_cons, List.map_nil, List.cons_append, List.nil_append]
        rw [get?_none_of_not_mem ps s hn.1]
        simp only [Option.getD_none]
        congr 1
        apply List.filter_congr
        intro q hq
        have hne : q.1 ≠ s := fun e => hn.1 (e ▸ List.mem_map.2 ⟨q, hq, rfl⟩)
        simp [List.map_append, hne]

theorem effective_eq (dflt : Config Rx) (user : Option (Config Rx)) (hd : dflt.keys.Nodup) (hu : ∀ u, user = some u → u.keys.Nodup) :
    effective dflt user = inForce dflt user := by
  unfold effective inForce
  cases user with
  | none => rfl
  | some u => exact update_eq dflt u hd (hu u rfl)

/-! ### kinds -/

theorem kindOf_ok {c : Conf Rx} {k : Str} : kindOf c = .ok k ↔ c.get? c!"kind" = some (.str k) := by
  unfold kindOf
  split
  · rename_i s h
    rw [h]
    constructor
    · intro h; cases h; rfl
    · intro h; injection h with h; injection h with h; rw [h]
  · rename_i o h1 h
    rw [h]
    constructor
    · intro h'; cases h'
    · intro h'; injection h' with h'; exact absurd h' (h1 k)
  · rename_i h
    rw [h]
    constructor <;> intro h' <;> cases h'

theorem setStreams_firsts {ks ks' : List Str} {c : Config Rx} (h : setStreams ks c = .ok ks') :
    ks' = ks ++ (firsts (c.filterMap supportedKind)).filter fun k => !decide (k ∈ ks) := by
  induction c generalizing ks with
  | nil => cases h; simp [firsts]
  | cons p ps ih =>
    unfold setStreams at h
    obtain ⟨k, hk, h⟩ := Res.bind_eq_ok.1 h
    have hk' := kindOf_ok.1 hk
    have hsup : supportedKind p = if upper k = c!"ERROR" ∨ upper k = c!"WARNING" then some k else none := by
      unfold supportedKind
      rw [hk']
    by_cases hu : upper k = c!"ERROR" ∨ upper k = c!"WARNING"
    · rw [if_pos hu] at hsup
      rw [List.filterMap_cons_some hsup]
      simp only [firsts]
      have hall : upper k ∈ allowedKinds := by simpa [allowedKinds] using hu
      by_cases hm : k ∈ ks
      · rw [if_neg (fun x => x.2 hm)] at h
        rw [ih h, List.filter_cons, if_neg (by simp [hm]), List.filter_filter]
        congr 1
        apply List.filter_congr
        intro x _
        by_cases e : x = k
        · subst e; simp [hm]
        · simp [e]
      · rw [if_pos ⟨hall, hm⟩] at h
        rw [ih h, List.filter_cons, if_pos (by simp [hm]), List.filter_filter, List.append_assoc]
        congr 1
        rw [List.singleton_append]
        congr 1
        apply List.filter_congr
        intro x _
        by_cases e : x = k
        · subst e; simp
        · simp [e]
    · rw [if_neg hu] at hsup
      rw [List.filterMap_cons_none hsup]
      have hall : ¬ upper k ∈ allowedKinds := by simpa [allowedKinds] using hu
      rw [if_neg (fun x => hall x.1)] at h
      exact ih h

/-- C117: `kinds` are the supported kinds of the entries in force, each once, in order of first appearance. -/
theorem C117_kinds (E : Engine Rx) (dflt : Config Rx) (user : Option (Config Rx)) (hist : Bool) (path : Option (Option Str))
    (handler : Option Str) (o : Object Rx) (hd : dflt.keys.Nodup) (hu : ∀ u, user = some u → u.keys.Nodup)
    (h : init E dflt user hist path handler = .ok o) :
    kindsOf o = firsts ((inForce dflt user).filterMap supportedKind) := by
  obtain ⟨text, kinds, tt, st, ht, h1, h2, h3, rfl⟩ := init_ok h
  rw [effective_eq dflt user hd hu] at h1
  have := setStreams_firsts h1
  simpa [kindsOf] using this

/-! ### the table -/

/-- The trigger of an entry. -/
def made (E : Engine Rx) (p : Str × Conf Rx) : Option (Trigger Rx) :=
  match mkTrigger E p.1 p.2 with
  | .ok t => some t
  | _ => none

theorem made_some {E : Engine Rx} {p : Str × Conf Rx} {t : Trigger Rx} : made E p = some t ↔ mkTrigger E p.1 p.2 = .ok t := by
  unfold made
  split
  · rename_i u hu
    rw [hu]
    constructor
    · intro h; injection h with h; rw [h]
    · intro h; injection h with h; rw [h]
  · rename_i hno
    constructor
    · intro h; cases h
    · intro h; exact absurd h (hno t)

theorem forall₂_made {E : Engine Rx} {l : List (Str × Conf Rx)} {L : List (Trigger Rx)}
    (h : List.Forall₂ (fun p t => mkTrigger E p.1 p.2 = .ok t) l L) : L = l.filterMap (made E) := by
  induction h with
  | nil => rfl
  | cons h1 _ ih => rw [List.filterMap_cons_some (made_some.2 h1), ← ih]

theorem made_kind (E : Engine Rx) (config : Config Rx) (k : Str) (b : Bool) :
    ((config.filter (ofKind k)).filterMap (made E)).filter (fun t => decide (t.inverse = b)) = select k b (config.filterMap (made E)) := by
  unfold select
  induction config with
  | nil => rfl
  | cons p ps ih =>
    cases hm : made E p with
    | none =>
      rw [List.filterMap_cons_none hm, ← ih, List.filter_cons]
      split
      · rw [List.filterMap_cons_none hm]
      · rfl
    | some t =>
      obtain ⟨_, hk, _⟩ := mkTrigger_short (made_some.1 hm)
      rw [List.filterMap_cons_some hm, List.filter_cons, List.filter_cons, ← ih]
      by_cases e : t.kind = k
      · have : ofKind k p = true := by unfold ofKind; rw [hk, e]; simp
        rw [if_pos this, List.filterMap_cons_some hm, List.filter_cons]
        simp [e]
      · have : ofKind k p = false := by
          unfold ofKind
          rw [hk]
          simpa using e
        rw [if_neg (by rw [this]; decide)]
        simp [e]

theorem set_keys_same (d : Table Rx) (k : Str) (v : List (Trigger Rx)) (h : k ∈ d.keys) : (d.set k v).keys = d.keys := by
  induction d with
  | nil => simp [Dict.keys] at h
  | cons p ps ih =>
    obtain ⟨a, b⟩ := p
    simp only [Dict.set]
    split
    · rfl
    · rename_i e
      have : k ∈ a :: Dict.keys ps := by simpa [Dict.keys] using h
      rcases List.mem_cons.1 this with r | r
      · exact absurd r.symm e
      · have := ih r
        simp only [Dict.keys, List.map_cons] at this ⊢
        rw [this]

theorem inner_keys {E : Engine Rx} {kind : Str} {config : Config Rx} {tt tt' : Table Rx × Table Rx}
    (h : Res.foldlM' (buildOne E kind) tt config = .ok tt') (hk : keyOf kind ∈ tt.1.keys) : tt'.1.keys = tt.1.keys := by
  induction config generalizing tt with
  | nil => cases h; rfl
  | cons p ps ih =>
    unfold Res.foldlM' at h
    cases hb : buildOne E kind tt p with
    | exit c => rw [hb] at h; cases h
    | raise e => rw [hb] at h; cases h
    | ok t1 =>
      rw [hb] at h
      have h1 : t1.1.keys = tt.1.keys := by
        unfold buildOne at hb
        obtain ⟨k, _, hb⟩ := Res.bind_eq_ok.1 hb
        split at hb
        · obtain ⟨t, _, hb⟩ := Res.bind_eq_ok.1 hb
          split at hb
          · cases hb; rfl
          · cases hb; exact set_keys_same _ _ _ hk
        · cases hb; rfl
      rw [← h1]
      exact ih h (h1 ▸ hk)

theorem outer_lists {E : Engine Rx} {kinds : List Str} {config : Config Rx} {tt tt' : Table Rx × Table Rx}
    (h : Res.foldlM' (fun tt kind => Res.foldlM' (buildOne E kind) tt config) tt kinds = .ok tt')
    (hk : ∀ k ∈ kinds, keyOf k ∈ tt.1.keys) :
    tt'.1.keys = tt.1.keys ∧ (∀ k ∈ kinds, ∀ p ∈ config, kindOf p.2 = .ok k → (made E p).isSome) ∧
    (∀ key, lists tt'.1 key = lists tt.1 key ++ (kinds.filter fun k => decide (keyOf k = key)).flatMap fun k =>
      select k false (config.filterMap (made E))) ∧
    (∀ key, lists tt'.2 key = lists tt.2 key ++ (kinds.filter fun k => decide (keyOf k = key)).flatMap fun k =>
      select k true (config.filterMap (made E))) := by
  induction kinds generalizing tt with
  | nil => cases h; exact ⟨rfl, by simp, by simp, by simp⟩
  | cons k ks ih =>
    unfold Res.foldlM' at h
    cases hb : Res.foldlM' (buildOne E k) tt config with
    | exit c => rw [hb] at h; cases h
    | raise e => rw [hb] at h; cases h
    | ok t1 =>
      rw [hb] at h
      have hkeys := inner_keys hb (hk k (by simp))
      obtain ⟨i0, i1, i2, i3⟩ := ih h (fun x hx => hkeys ▸ hk x (by simp [hx]))
      obtain ⟨M, j1, j2, j3, _, _⟩ := inner_ok hb
      have hM := forall₂_made j1
      have sel : ∀ (key : Str) (b : Bool), M.filter (fun t => decide (keyOf k = key) && decide (t.inverse = b)) =
          if keyOf k = key then select k b (config.filterMap (made E)) else [] := by
        intro key b
        split
        · rename_i e
          rw [← made_kind, ← hM]
          apply List.filter_congr
          intro t _
          simp [e]
        · rename_i e
          rw [List.filter_eq_nil_iff]
          intro t _
          simp [e]
      have e0 : ∀ key, M.filter (fun t => decide (keyOf k = key) && !t.inverse) =
          if keyOf k = key then select k false (config.filterMap (made E)) else [] := by
        intro key
        rw [← sel key false]
        apply List.filter_congr
        intro t _
        cases t.inverse <;> simp
      have e1 : ∀ key, M.filter (fun t => decide (keyOf k = key) && t.inverse) =
          if keyOf k = key then select k true (config.filterMap (made E)) else [] := by
        intro key
        rw [← sel key true]
        apply List.filter_congr
        intro t _
        cases t.inverse <;> simp
      refine ⟨i0.trans hkeys, ?_, ?_, ?_⟩
      · intro x hx p hp hpk
        rcases List.mem_cons.1 hx with rfl | hx
        · obtain ⟨t, _, ht⟩ := forall₂_mem_left j1 (List.mem_filter.2 ⟨hp, by unfold ofKind; exact decide_eq_true hpk⟩)
          rw [made_some.2 ht]; rfl
        · exact i1 x hx p hp hpk
      · intro key
        rw [i2 key, j2 key, e0 key, List.append_assoc, List.filter_cons]
        split <;> rename_i e
        · rw [if_pos (decide_eq_true e), List.flatMap_cons]
        · rw [if_neg (by simpa using e), List.nil_append]
      · intro key
        rw [i3 key, j3 key, e1 key, List.append_assoc, List.filter_cons]
        split <;> rename_i e
        · rw [if_pos (decide_eq_true e), List.flatMap_cons]
        · rw [if_neg (by simpa using e), List.nil_append]

theorem extend_lists (kinds : List Str) (tr inv : Table Rx) (key : Str) :
    lists (extend kinds tr inv) key = lists tr key ++ (List.replicate (kinds.filter fun k => decide (keyOf k = key)).length (lists inv key)).flatten := by
  unfold extend
  induction kinds generalizing tr with
  | nil => simp
  | cons k ks ih =>
    rw [List.foldl_cons, ih, lists_set, List.filter_cons]
    split <;> rename_i e
    · rw [if_pos (decide_eq_true e), List.length_cons, List.replicate_succ, List.flatten_cons, List.append_assoc, e]
      rfl
    · rw [if_neg (by simpa using e)]

theorem extend_keys (kinds : List Str) (tr inv : Table Rx) (h : ∀ k ∈ kinds, keyOf k ∈ tr.keys) : (extend kinds tr inv).keys = tr.keys := by
  unfold extend
  induction kinds generalizing tr with
  | nil => rfl
  | cons k ks ih =>
    rw [List.foldl_cons]
    have hk := set_keys_same tr (keyOf k) ((tr.get? (keyOf k)).getD [] ++ (inv.get? (keyOf k)).getD []) (h k (by simp))
    rw [ih _ (fun x hx => hk ▸ h x (by simp [hx])), hk]

theorem set_keys_new (d : Table Rx) (k : Str) (v : List (Trigger Rx)) (h : k ∉ d.keys) : (d.set k v).keys = d.keys ++ [k] := by
  induction d with
  | nil => rfl
  | cons p ps ih =>
    obtain ⟨a, b⟩ := p
    have hn : ¬ k = a ∧ k ∉ Dict.keys ps := by simpa [Dict.keys] using h
    simp only [Dict.set]
    rw [if_neg (fun e => hn.1 e.symm)]
    have := ih hn.2
    simp only [Dict.keys, List.map_cons] at this ⊢
    rw [this]; rfl

theorem emptyTable_keys (kinds : List Str) : (emptyTable kinds : Table Rx).keys = firsts (kinds.map plural) := by
  have key : ∀ d : Table Rx, (kinds.foldl (fun d k => d.set (keyOf k) []) d).keys =
      d.keys ++ (firsts (kinds.map plural)).filter fun x => !decide (x ∈ d.keys) := by
    induction kinds with
    | nil => intro d; simp [firsts]
    | cons k ks ih =>
      intro d
      rw [List.foldl_cons, ih, List.map_cons]
      simp only [firsts]
      have hp : keyOf k = plural k := rfl
      by_cases hm : keyOf k ∈ d.keys
      · rw [set_keys_same d _ _ hm, List.filter_cons, if_neg (by rw [← hp]; simp [hm]), List.filter_filter]
        congr 1
        apply List.filter_congr
        intro x _
        by_cases e : x = plural k
        · subst e; rw [← hp]; simp [hm]
        · simp [e]
      · rw [set_keys_new d _ _ hm, List.filter_cons, if_pos (by rw [← hp]; simp [hm]), List.filter_filter, List.append_assoc, hp]
        congr 1
        rw [List.singleton_append]
        congr 1
        apply List.filter_congr
        intro x _
        by_cases e : x = plural k
        · subst e; simp
        · simp [e]
  have := key []
  simpa [emptyTable, Dict.keys] using this

theorem mem_firsts (l : List Str) (x : Str) : x ∈ firsts l ↔ x ∈ l := by
  induction l with
  | nil => rfl
  | cons k r ih =>
    simp only [firsts, List.mem_cons, List.mem_filter, ih, Bool.not_eq_true', decide_eq_false_iff_not]
    constructor
    · rintro (h | h)
      · exact .inl h
      · exact .inr h.1
    · rintro (h | h)
      · exact .inl h
      · by_cases e : x = k
        · exact .inl e
        · exact .inr ⟨h, e⟩

theorem firsts_nodup (l : List Str) : (firsts l).Nodup := by
  induction l with
  | nil => simp [firsts]
  | cons k r ih =>
    simp only [firsts, List.nodup_cons, List.mem_filter]
    exact ⟨by simp, ih.filter _⟩

theorem firsts_of_nodup (l : List Str) (h : l.Nodup) : firsts l = l := by
  induction l with
  | nil => rfl
  | cons k r ih =>
    rw [List.nodup_cons] at h
    simp only [firsts]
    rw [ih h.2, List.filter_eq_self.2]
    intro x hx
    have : x ≠ k := fun e => h.1 (e ▸ hx)
    simp [this]

theorem table_eq (d : Table Rx) (h : d.keys.Nodup) : d = d.keys.map fun key => (key, lists d key) := by
  unfold Dict.keys
  rw [List.map_map]
  symm
  rw [List.map_congr_left (g := id), List.map_id]
  intro p hp
  simp only [Function.comp, id, lists]
  rw [Dict.get?_eq_some_of_mem d h (k := p.1) (v := p.2) hp]
  rfl

theorem described (E : Engine Rx) (config : List (Str × Conf Rx)) (h : ∀ p ∈ config, (supportedKind p).isSome → (made E p).isSome) :
    List.Forall₂ (fun p t => Describes E p.1 p.2 t) (config.filter fun p => (supportedKind p).isSome) (config.filterMap (made E)) := by
  induction config with
  | nil => exact .nil
  | cons p ps ih =>
    have ih := ih fun q hq => h q (by simp [hq])
    cases hm : made E p with
    | some t =>
      have D := (C36_entry E p.1 p.2 t).1 (made_some.1 hm)
      have : (supportedKind p).isSome = true := by
        unfold supportedKind
        rw [D.kind]
        simp only
        rw [if_pos D.supported]
        rfl
      rw [List.filterMap_cons_some hm, List.filter_cons, if_pos this]
      exact .cons D ih
    | none =>
      rw [List.filterMap_cons_none hm, List.filter_cons, if_neg]
      · exact ih
      · intro hs
        have := h p (by simp) hs
        rw [hm] at this
        cases this

/-- C117, all cases: there is one stream per supported entry in force, described by it. The keys are the plurals of the kinds, each
once; under a key are the ordinary streams of the kinds with that plural, kind by kind, then, as many times as there are such kinds, the
inverse ones. -/
theorem C117_configured (E : Engine Rx) (dflt : Config Rx) (user : Option (Config Rx)) (hist : Bool) (path : Option (Option Str))
    (handler : Option Str) (o : Object Rx) (hd : dflt.keys.Nodup) (hu : ∀ u, user = some u → u.keys.Nodup)
    (h : init E dflt user hist path handler = .ok o) :
    ∃ ts : List (Trigger Rx),
      List.Forall₂ (fun p t => Describes E p.1 p.2 t) ((inForce dflt user).filter fun p => (supportedKind p).isSome) ts ∧
      configuredStreams o = (firsts ((kindsOf o).map plural)).map fun key =>
        (key, (((kindsOf o).filter fun k => decide (plural k = key)).flatMap fun k => select k false ts) ++
          (List.replicate ((kindsOf o).filter fun k => decide (plural k = key)).length
            (((kindsOf o).filter fun k => decide (plural k = key)).flatMap fun k => select k true ts)).flatten) := by
  obtain ⟨text, kinds, tt, st, ht, h1, h2, h3, rfl⟩ := init_ok h
  rw [effective_eq dflt user hd hu] at h1 h2
  have hkinds := setStreams_firsts h1
  have hkn := (setStreams_ok h1 (by simp)).2.2
  generalize hc : inForce dflt user = config at h1 h2 hkinds hkn
  have hmem : ∀ k ∈ kinds, keyOf k ∈ (emptyTable kinds : Table Rx).keys := by
    intro k hk
    rw [emptyTable_keys, mem_firsts]
    exact List.mem_map.2 ⟨k, hk, rfl⟩
  unfold build at h2
  obtain ⟨o1, o2, o3, o4⟩ := outer_lists h2 hmem
  simp only [emptyTable_lists, List.nil_append] at o3 o4
  have hkeys : (extend kinds tt.1 tt.2).keys = firsts (kinds.map plural) := by
    rw [extend_keys kinds tt.1 tt.2 (fun k hk => o1 ▸ hmem k hk)]
    exact o1.trans (emptyTable_keys kinds)
  refine ⟨config.filterMap (made E), ?_, ?_⟩
  · apply described
    intro p hp hs
    have : ∃ k, p.2.get? c!"kind" = some (.str k) ∧ (upper k = c!"ERROR" ∨ upper k = c!"WARNING") := by
      unfold supportedKind at hs
      split at hs
      · rename_i k hk
        split at hs
        · rename_i hu; exact ⟨k, hk, hu⟩
        · cases hs
      · cases hs
    obtain ⟨k, hk, hup⟩ := this
    have hko := kindOf_ok.2 hk
    exact o2 k ((hkn k).2 (.inr ⟨by simpa [allowedKinds] using hup, p, hp, hko⟩)) p hp hko
  · show extend kinds tt.1 tt.2 = _
    rw [table_eq (extend kinds tt.1 tt.2) (hkeys ▸ firsts_nodup _), hkeys]
    apply List.map_congr_left
    intro key _
    rw [extend_lists, o3, o4]
    rfl

/-- C117, except for kinds that differ in case only: `configured_streams` has one list per kind, under its lower-case plural, with the
ordinary streams of that kind and then the inverse ones, in the order of the configuration. Missing: kinds that differ in case only
(`C117_violation`). -/
theorem C117_configured_partial (E : Engine Rx) (dflt : Config Rx) (user : Option (Config Rx)) (hist : Bool) (path : Option (Option Str))
    (handler : Option Str) (o : Object Rx) (hd : dflt.keys.Nodup) (hu : ∀ u, user = some u → u.keys.Nodup)
    (h : init E dflt user hist path handler = .ok o) (hcase : ((kindsOf o).map lower).Nodup) :
    ∃ ts : List (Trigger Rx),
      List.Forall₂ (fun p t => Describes E p.1 p.2 t) ((inForce dflt user).filter fun p => (supportedKind p).isSome) ts ∧
      configuredStreams o = (kindsOf o).map fun k => (lower k ++ ['s'], select k false ts ++ select k true ts) := by
  obtain ⟨ts, h1, h2⟩ := C117_configured E dflt user hist path handler o hd hu h
  refine ⟨ts, h1, ?_⟩
  generalize kindsOf o = kinds at h2 hcase
  have hinj : ∀ a ∈ kinds, ∀ b ∈ kinds, plural a = plural b → a = b := by
    intro a ha b hb e
    exact List.inj_on_of_nodup_map hcase ha hb (List.append_cancel_right e)
  have hpl : (kinds.map plural).Nodup := (List.nodup_map_iff_inj_on hcase.of_map).2 hinj
  rw [h2, firsts_of_nodup _ hpl, List.map_map]
  apply List.map_congr_left
  intro k hk
  have hf : (kinds.filter fun x => decide (plural x = plural k)) = [k] := by
    have hn : kinds.Nodup := hcase.of_map
    clear h2 hcase hpl
    induction kinds with
    | nil => cases hk
    | cons a r ih =>
      rw [List.nodup_cons] at hn
      rw [List.filter_cons]
      by_cases e : a = k
      · subst e
        rw [if_pos (by simp)]
        congr 1
        rw [List.filter_eq_nil_iff]
        intro x hx
        simp only [decide_eq_true_eq]
        intro e
        have := hinj x (by simp [hx]) a (by simp) e
        exact hn.1 (this ▸ hx)
      · rw [if_neg]
        · rcases List.mem_cons.1 hk with r' | r'
          · exact absurd r'.symm e
          · exact ih (fun x hx y hy => hinj x (by simp [hx]) y (by simp [hy])) r' hn.2
        · simp only [decide_eq_true_eq]
          intro e'
          exact e (hinj a (by simp) k hk e')
  simp only [Function.comp, hf]
  simp [plural]

/-- C117, `str()`: the number of entries and the kinds. -/
theorem C117_str (E : Engine Rx) (dflt : Config Rx) (user : Option (Config Rx)) (hist : Bool) (path : Option (Option Str))
    (handler : Option Str) (o : Object Rx) (hd : dflt.keys.Nodup) (hu : ∀ u, user = some u → u.keys.Nodup)
    (h : init E dflt user hist path handler = .ok o) :
    reportStr o = c!"We detected " ++ Nat.toDigits 10 o.entries.length ++ c!" unique " ++
      join c!", " (firsts ((inForce dflt user).filterMap supportedKind)) ++ c!"'s" := by
  rw [← C117_kinds E dflt user hist path handler o hd hu h]
  rfl

/-- A configuration with two spellings of a kind and an inverse stream. -/
def twoSpellings : Config Str :=
  [(c!"nostart", [(c!"kind", .str c!"ERROR"), (c!"regex", .str c!"vasp."), (c!"message", .str c!"not started"), (c!"inverse", .bool true)]),
   (c!"brmix", [(c!"kind", .str c!"Error"), (c!"regex", .str c!"BRMIX"), (c!"message", .str c!"mixing")])]

/-- C117 is false if two kinds differ in case only: the inverse stream is listed twice. -/
theorem C117_violation : ∃ o, init plain twoSpellings none false none (some c!"vasp.6\n") = .ok o ∧
    kindsOf o = [c!"ERROR", c!"Error"] ∧
    (configuredStreams o).map (fun p => (p.1, p.2.map Trigger.shortname)) = [(c!"errors", [c!"brmix", c!"nostart", c!"nostart"])] :=
  ⟨_, rfl, by decide +kernel, by decide +kernel⟩

/-- Non-vacuity: two kinds, an inverse stream, an unsupported kind and an entry of the user. -/
example : ∃ o, init plain exampleDefault (some exampleUser) false none (some c!"my\nBRMIX\n") = .ok o ∧
    kindsOf o = [c!"ERROR", c!"Warning"] ∧ ((kindsOf o).map lower).Nodup ∧
    (configuredStreams o).map (fun p => (p.1, p.2.map Trigger.shortname)) = [(c!"errors", [c!"brmix", c!"nostart"]), (c!"warnings", [c!"mine"])] ∧
    reportStr o = c!"We detected 3 unique ERROR, Warning's" :=
  ⟨_, rfl, by decide +kernel, by decide +kernel, by decide +kernel, by decide +kernel⟩

end Verif.Stream
