import Mathlib.Data.List.Induction
import Verif.Model.Stream
import Verif.Lemmas.Dict
import Verif.Lemmas.Exits
import Mathlib.Data.List.Nodup
import Mathlib.Data.List.Pairwise
/-! # Standard stream: reports, history, inverse streams, configuration (C33-C36) -/
set_option autoImplicit false
namespace Verif.Stream
open Verif

variable {Rx : Type}

/-! ### specification -/

/-- Is the trigger found in the line? -/
def Hits (E : Engine Rx) (t : Trigger Rx) (line : Str) : Prop := ∃ r, t.regex = some r ∧ E.search r line = true

instance (E : Engine Rx) (t : Trigger Rx) (line : Str) : Decidable (Hits E t line) :=
  decidable_of_iff (t.regex.any (fun r => E.search r line) = true) (by
    unfold Hits; cases t.regex <;> simp)

/-- The configuration in force: an entry of the user replaces the standard entry of the same short name. -/
def entry (dflt : Config Rx) (user : Option (Config Rx)) (short : Str) : Option (Conf Rx) :=
  match user with
  | some u => (u.get? short).or (dflt.get? short)
  | none => dflt.get? short

/-- What the entry of a short name says about its trigger. -/
structure Describes (E : Engine Rx) (short : Str) (c : Conf Rx) (t : Trigger Rx) : Prop where
  shortname : t.shortname = short
  known : ∀ k ∈ c.keys, k ∈ [c!"kind", c!"regex", c!"message", c!"suggestion", c!"location", c!"recover", c!"inverse"]
  kind : c.get? c!"kind" = some (.str t.kind)
  supported : upper t.kind = c!"ERROR" ∨ upper t.kind = c!"WARNING"
  regex : (∃ p r, c.get? c!"regex" = some (.str p) ∧ E.compile p = some r ∧ t.regex = some r) ∨
    (∃ r, c.get? c!"regex" = some (.rx r) ∧ t.regex = some r) ∨
    (∃ b, c.get? c!"regex" = some (.bool b)) ∧ t.regex = none ∨ c.get? c!"regex" = some .none ∧ t.regex = none ∨
    c.get? c!"regex" = some .other ∧ t.regex = none
  message : c.get? c!"message" = some (.str t.message)
  suggestion : (c.get? c!"suggestion" = none ∨ c.get? c!"suggestion" = some .none) ∧ t.suggestion = none ∨
    ∃ s, c.get? c!"suggestion" = some (.str s) ∧ t.suggestion = some s
  location : c.get? c!"location" = none ∧ t.location = c!"STDOUT" ∨
    c.get? c!"location" = some (.str t.location) ∧ (t.location = c!"STDOUT" ∨ t.location = c!"STDERR")
  recover : c.get? c!"recover" = none ∧ t.recover = false ∨ c.get? c!"recover" = some (.bool t.recover)
  inverse : c.get? c!"inverse" = none ∧ t.inverse = false ∨ c.get? c!"inverse" = some (.bool t.inverse)

/-- The configured triggers in order. -/
def Object.triggers (o : Object Rx) : List (Trigger Rx) := o.configured.flatMap Prod.snd

/-- The text given to the constructor. -/
def textOf (path : Option (Option Str)) (handler : Option Str) : Option Str :=
  match handler with
  | some t => some t
  | none => path.join

/-! ### dictionaries -/

/-- The list under a key. -/
def lists (d : Table Rx) (key : Str) : List (Trigger Rx) := (d.get? key).getD []

theorem lists_set (d : Table Rx) (k key : Str) (v : List (Trigger Rx)) : lists (d.set k v) key = if k = key then v else lists d key := by
  unfold lists
  rw [Dict.get?_set]
  split <;> rfl

theorem lists_push (d : Table Rx) (k key : Str) (t : Trigger Rx) : lists (d.push k t) key = lists d key ++ if k = key then [t] else [] := by
  unfold Table.push
  rw [lists_set]
  split
  · rename_i h; subst h; rfl
  · simp

theorem flatMap_lists {d : Table Rx} (h : d.keys.Nodup) : d.flatMap Prod.snd = d.keys.flatMap (lists d) := by
  have : ∀ p ∈ d, p.2 = lists d p.1 := by
    intro p hp
    unfold lists
    rw [Dict.get?_eq_some_of_mem d h (k := p.1) (v := p.2) hp]
    rfl
  unfold Dict.keys
  rw [List.flatMap_map]
  exact List.flatMap_congr this

theorem lists_mem_key {d : Table Rx} {key : Str} {t : Trigger Rx} (h : t ∈ lists d key) : key ∈ d.keys := by
  unfold lists at h
  cases hg : d.get? key with
  | none => rw [hg] at h; cases h
  | some l => rw [Dict.mem_keys_iff, hg]; rfl

theorem mem_flatMap_lists {d : Table Rx} (h : d.keys.Nodup) (t : Trigger Rx) : t ∈ d.flatMap Prod.snd ↔ ∃ key, t ∈ lists d key := by
  rw [flatMap_lists h, List.mem_flatMap]
  constructor
  · rintro ⟨key, _, ht⟩; exact ⟨key, ht⟩
  · rintro ⟨key, ht⟩; exact ⟨key, lists_mem_key ht, ht⟩

/-! ### configuration -/

theorem update_get? (d u : Config Rx) (hu : u.keys.Nodup) (k : Str) : (update d u).get? k = (u.get? k).or (d.get? k) := by
  unfold update
  induction u generalizing d with
  | nil => rfl
  | cons p ps ih =>
    obtain ⟨a, b⟩ := p
    have hn : a ∉ Dict.keys ps ∧ (Dict.keys ps).Nodup := by simpa [Dict.keys] using hu
    rw [List.foldl_cons, ih _ hn.2, Dict.get?_set]
    simp only [Dict.get?]
    split
    · rename_i h
      subst h
      have : Dict.get? ps a = none := by
        cases hg : Dict.get? ps a with
        | none => rfl
        | some v => exact absurd ((Dict.mem_keys_iff ps a).2 (by rw [hg]; rfl)) hn.1
      rw [this]; rfl
    · rfl

theorem update_nodup (d u : Config Rx) (hd : d.keys.Nodup) : (update d u).keys.Nodup := by
  unfold update
  induction u generalizing d with
  | nil => exact hd
  | cons p ps ih => rw [List.foldl_cons]; exact ih _ (Dict.keys_set_nodup _ _ _ hd)

theorem setStreams_ok {ks ks' : List Str} {c : Config Rx} (h : setStreams ks c = .ok ks') (hn : ks.Nodup) :
    ks'.Nodup ∧ (∀ p ∈ c, ∃ k, kindOf p.2 = .ok k) ∧
    ∀ k, k ∈ ks' ↔ k ∈ ks ∨ (upper k ∈ allowedKinds ∧ ∃ p ∈ c, kindOf p.2 = .ok k) := by
  induction c generalizing ks with
  | nil => cases h; exact ⟨hn, by simp, by simp⟩
  | cons p ps ih =>
    unfold setStreams at h
    obtain ⟨k0, hk0, h⟩ := Res.bind_eq_ok.1 h
    have key : ∀ ks1 : List Str, setStreams ks1 ps = .ok ks' → ks1.Nodup → (∀ k, k ∈ ks1 ↔ k ∈ ks ∨ (upper k ∈ allowedKinds ∧ k = k0)) →
        ks'.Nodup ∧ (∀ p' ∈ p :: ps, ∃ k, kindOf p'.2 = .ok k) ∧
        ∀ k, k ∈ ks' ↔ k ∈ ks ∨ (upper k ∈ allowedKinds ∧ ∃ p' ∈ p :: ps, kindOf p'.2 = .ok k) := by
      intro ks1 h1 h2 h3
      obtain ⟨i1, i2, i3⟩ := ih h1 h2
      refine ⟨i1, ?_, ?_⟩
      · intro p' hp'
        rcases List.mem_cons.1 hp' with rfl | hp'
        · exact ⟨k0, hk0⟩
        · exact i2 p' hp'
      · intro k
        rw [i3 k, h3 k]
        constructor
        · rintro ((h | ⟨ha, rfl⟩) | ⟨ha, p', hp', he⟩)
          · exact .inl h
          · exact .inr ⟨ha, p, by simp, hk0⟩
          · exact .inr ⟨ha, p', by simp [hp'], he⟩
        · rintro (h | ⟨ha, p', hp', he⟩)
          · exact .inl (.inl h)
          · rcases List.mem_cons.1 hp' with rfl | hp'
            · rw [hk0] at he; cases he; exact .inl (.inr ⟨ha, rfl⟩)
            · exact .inr ⟨ha, p', hp', he⟩
    split at h
    · rename_i hc
      refine key _ h ?_ ?_
      · rw [List.nodup_append]
        refine ⟨hn, by simp, ?_⟩
        intro a ha b hb
        simp only [List.mem_singleton] at hb
        subst hb
        rintro rfl
        exact hc.2 ha
      · intro k
        simp only [List.mem_append, List.mem_singleton]
        constructor
        · rintro (h | rfl)
          · exact .inl h
          · exact .inr ⟨hc.1, rfl⟩
        · rintro (h | ⟨_, rfl⟩)
          · exact .inl h
          · exact .inr rfl
    · rename_i hc
      refine key _ h hn ?_
      intro k
      constructor
      · exact .inl
      · rintro (h | ⟨ha, rfl⟩)
        · exact h
        · by_contra hk; exact hc ⟨ha, hk⟩

/-! ### building -/

theorem mkTrigger_short {E : Engine Rx} {s : Str} {c : Conf Rx} {t : Trigger Rx} (h : mkTrigger E s c = .ok t) :
    t.shortname = s ∧ kindOf c = .ok t.kind ∧ upper t.kind ∈ allowedKinds := by
  unfold mkTrigger at h
  split at h
  · split at h
    · rename_i k r m hk hr hm
      obtain ⟨kind, h1, h⟩ := Res.bind_eq_ok.1 h
      obtain ⟨rx, _, h⟩ := Res.bind_eq_ok.1 h
      obtain ⟨msg, _, h⟩ := Res.bind_eq_ok.1 h
      obtain ⟨sug, _, h⟩ := Res.bind_eq_ok.1 h
      obtain ⟨loc, _, h⟩ := Res.bind_eq_ok.1 h
      obtain ⟨rec, _, h⟩ := Res.bind_eq_ok.1 h
      obtain ⟨inv, _, h⟩ := Res.bind_eq_ok.1 h
      cases h
      refine ⟨rfl, ?_⟩
      unfold setKind at h1
      split at h1
      · split at h1
        · cases h1
          unfold kindOf
          rw [hk]
          exact ⟨rfl, by assumption⟩
        · cases h1
      · cases h1
    · cases h
  · cases h

/-- Is the entry of the kind? -/
def ofKind (kind : Str) (p : Str × Conf Rx) : Bool := decide (kindOf p.2 = .ok kind)

theorem inner_ok {E : Engine Rx} {kind : Str} {config : Config Rx} {tt tt' : Table Rx × Table Rx}
    (h : Res.foldlM' (buildOne E kind) tt config = .ok tt') :
    ∃ L : List (Trigger Rx), List.Forall₂ (fun p t => mkTrigger E p.1 p.2 = .ok t) (config.filter (ofKind kind)) L ∧
      (∀ key, lists tt'.1 key = lists tt.1 key ++ L.filter (fun t => decide (keyOf kind = key) && !t.inverse)) ∧
      (∀ key, lists tt'.2 key = lists tt.2 key ++ L.filter (fun t => decide (keyOf kind = key) && t.inverse)) ∧
      (tt.1.keys.Nodup → tt'.1.keys.Nodup) ∧ (tt.2.keys.Nodup → tt'.2.keys.Nodup) := by
  induction config generalizing tt with
  | nil => cases h; exact ⟨[], .nil, by simp, by simp, id, id⟩
  | cons p ps ih =>
    unfold Res.foldlM' at h
    cases hb : buildOne E kind tt p with
    | exit c => rw [hb] at h; cases h
    | raise e => rw [hb] at h; cases h
    | ok t1 =>
      rw [hb] at h
      obtain ⟨L, i1, i2, i3, i4, i5⟩ := ih h
      unfold buildOne at hb
      obtain ⟨k, hk, hb⟩ := Res.bind_eq_ok.1 hb
      split at hb
      · rename_i hkk
        subst hkk
        obtain ⟨t, ht, hb⟩ := Res.bind_eq_ok.1 hb
        have hf : (p :: ps).filter (ofKind k) = p :: ps.filter (ofKind k) := by
          rw [List.filter_cons, if_pos (by unfold ofKind; exact decide_eq_true hk)]
        refine ⟨t :: L, by rw [hf]; exact .cons ht i1, ?_⟩
        split at hb
        · rename_i hinv
          cases hb
          refine ⟨fun key => ?_, fun key => ?_, i4, fun hn => i5 (Dict.keys_set_nodup _ _ _ hn)⟩
          · rw [i2 key, List.filter_cons]; simp [hinv]
          · rw [i3 key, List.filter_cons]
            simp only [lists_push, hinv, Bool.and_true, decide_eq_true_eq]
            split <;> simp
        · rename_i hinv
          cases hb
          refine ⟨fun key => ?_, fun key => ?_, fun hn => i4 (Dict.keys_set_nodup _ _ _ hn), i5⟩
          · rw [i2 key, List.filter_cons]
            simp only [lists_push, hinv, Bool.not_false, Bool.and_true, decide_eq_true_eq]
            split <;> simp
          · rw [i3 key, List.filter_cons]; simp [hinv]
      · rename_i hkk
        cases hb
        have hf : (p :: ps).filter (ofKind kind) = ps.filter (ofKind kind) := by
          rw [List.filter_cons, if_neg]
          unfold ofKind
          rw [decide_eq_true_eq, hk]
          intro h; injection h with h; exact hkk h
        exact ⟨L, by rw [hf]; exact i1, i2, i3, i4, i5⟩

/-- The triggers built, in order, with their keys. -/
structure Built (E : Engine Rx) (kinds : List Str) (config : Config Rx) (L : List (Str × Trigger Rx)) : Prop where
  mem : ∀ key t, (key, t) ∈ L ↔ ∃ k ∈ kinds, ∃ p ∈ config, kindOf p.2 = .ok k ∧ mkTrigger E p.1 p.2 = .ok t ∧ key = keyOf k
  names : L.map (fun q => q.2.shortname) = kinds.flatMap fun k => (config.filter (ofKind k)).map Prod.fst

theorem forall₂_mem_right {α β} {R : α → β → Prop} {l : List α} {m : List β} (h : List.Forall₂ R l m) {b : β} (hb : b ∈ m) :
    ∃ a ∈ l, R a b := by
  induction h with
  | nil => cases hb
  | cons h1 _ ih =>
    rcases List.mem_cons.1 hb with rfl | hb
    · exact ⟨_, by simp, h1⟩
    · obtain ⟨a, ha, hr⟩ := ih hb; exact ⟨a, by simp [ha], hr⟩

theorem forall₂_mem_left {α β} {R : α → β → Prop} {l : List α} {m : List β} (h : List.Forall₂ R l m) {a : α} (ha : a ∈ l) :
    ∃ b ∈ m, R a b := by
  induction h with
  | nil => cases ha
  | cons h1 _ ih =>
    rcases List.mem_cons.1 ha with rfl | ha
    · exact ⟨_, by simp, h1⟩
    · obtain ⟨b, hb, hr⟩ := ih ha; exact ⟨b, by simp [hb], hr⟩

theorem forall₂_map_eq {α β γ} {R : α → β → Prop} {f : α → γ} {g : β → γ} {l : List α} {m : List β} (h : List.Forall₂ R l m)
    (hfg : ∀ a b, R a b → g b = f a) : m.map g = l.map f := by
  induction h with
  | nil => rfl
  | cons h1 _ ih => rw [List.map_cons, List.map_cons, ih, hfg _ _ h1]

theorem outer_ok {E : Engine Rx} {kinds : List Str} {config : Config Rx} {tt tt' : Table Rx × Table Rx}
    (h : Res.foldlM' (fun tt kind => Res.foldlM' (buildOne E kind) tt config) tt kinds = .ok tt') :
    ∃ L, Built E kinds config L ∧
      (∀ key, lists tt'.1 key = lists tt.1 key ++ (L.filter fun q => decide (q.1 = key) && !q.2.inverse).map Prod.snd) ∧
      (∀ key, lists tt'.2 key = lists tt.2 key ++ (L.filter fun q => decide (q.1 = key) && q.2.inverse).map Prod.snd) ∧
      (tt.1.keys.Nodup → tt'.1.keys.Nodup) ∧ (tt.2.keys.Nodup → tt'.2.keys.Nodup) := by
  induction kinds generalizing tt with
  | nil => cases h; exact ⟨[], ⟨by simp, by simp⟩, by simp, by simp, id, id⟩
  | cons k ks ih =>
    unfold Res.foldlM' at h
    cases hb : Res.foldlM' (buildOne E k) tt config with
    | exit c => rw [hb] at h; cases h
    | raise e => rw [hb] at h; cases h
    | ok t1 =>
      rw [hb] at h
      obtain ⟨L, i1, i2, i3, i4, i5⟩ := ih h
      obtain ⟨M, j1, j2, j3, j4, j5⟩ := inner_ok hb
      refine ⟨M.map (fun t => (keyOf k, t)) ++ L, ⟨?_, ?_⟩, ?_, ?_, fun hn => i4 (j4 hn), fun hn => i5 (j5 hn)⟩
      · intro key t
        rw [List.mem_append, i1.mem]
        constructor
        · rintro (h | ⟨k', hk', h⟩)
          · obtain ⟨t', ht', he⟩ := List.mem_map.1 h
            cases he
            obtain ⟨p, hp, hm⟩ := forall₂_mem_right j1 ht'
            obtain ⟨hp1, hp2⟩ := List.mem_filter.1 hp
            exact ⟨k, by simp, p, hp1, of_decide_eq_true hp2, hm, rfl⟩
          · exact ⟨k', by simp [hk'], h⟩
        · rintro ⟨k', hk', p, hp, h1, h2, rfl⟩
          rcases List.mem_cons.1 hk' with rfl | hk'
          · left
            have hpf : p ∈ config.filter (ofKind k') := List.mem_filter.2 ⟨hp, decide_eq_true h1⟩
            obtain ⟨t', ht', hm⟩ := forall₂_mem_left j1 hpf
            rw [h2] at hm; cases hm
            exact List.mem_map.2 ⟨t, ht', rfl⟩
          · exact .inr ⟨k', hk', p, hp, h1, h2, rfl⟩
      · rw [List.map_append, i1.names, List.flatMap_cons, List.map_map]
        congr 1
        exact forall₂_map_eq j1 fun a b hab => (mkTrigger_short hab).1
      · intro key
        rw [i2 key, j2 key, List.append_assoc, List.filter_append, List.map_append]
        congr 1
        rw [List.filter_map, List.map_map]
        show _ = List.map (fun t => t) _ ++ _
        rw [List.map_id']
        rfl
      · intro key
        rw [i3 key, j3 key, List.append_assoc, List.filter_append, List.map_append]
        congr 1
        rw [List.filter_map, List.map_map]
        show _ = List.map (fun t => t) _ ++ _
        rw [List.map_id']
        rfl

theorem names_nodup {kinds : List Str} {config : Config Rx} (hk : kinds.Nodup) (hc : config.keys.Nodup) :
    (kinds.flatMap fun k => (config.filter (ofKind k)).map Prod.fst).Nodup := by
  rw [List.nodup_flatMap]
  constructor
  · intro k _
    exact (List.filter_sublist.map Prod.fst).nodup hc
  · refine hk.imp ?_
    intro a b hab s hsa hsb
    obtain ⟨p, hp, rfl⟩ := List.mem_map.1 hsa
    obtain ⟨q, hq, he⟩ := List.mem_map.1 hsb
    obtain ⟨hp1, hp2⟩ := List.mem_filter.1 hp
    obtain ⟨hq1, hq2⟩ := List.mem_filter.1 hq
    have : q = p := List.inj_on_of_nodup_map hc hq1 hp1 he
    subst this
    have e1 := of_decide_eq_true hp2
    have e2 := of_decide_eq_true hq2
    rw [e1] at e2
    injection e2 with e2
    exact hab e2

theorem emptyTable_lists (kinds : List Str) (key : Str) : lists (emptyTable kinds : Table Rx) key = [] := by
  have : ∀ d : Table Rx, lists d key = [] → lists (kinds.foldl (fun d k => d.set (keyOf k) []) d) key = [] := by
    induction kinds with
    | nil => intro d h; exact h
    | cons k ks ih =>
      intro d h
      rw [List.foldl_cons]
      apply ih
      rw [lists_set]
      split
      · rfl
      · exact h
  exact this [] rfl

theorem emptyTable_nodup (kinds : List Str) : (emptyTable kinds : Table Rx).keys.Nodup := by
  have : ∀ d : Table Rx, d.keys.Nodup → (kinds.foldl (fun d k => d.set (keyOf k) []) d).keys.Nodup := by
    induction kinds with
    | nil => intro d h; exact h
    | cons k ks ih =>
      intro d h
      rw [List.foldl_cons]
      exact ih _ (Dict.keys_set_nodup _ _ _ h)
  exact this [] (by simp [Dict.keys])

theorem extend_ok (kinds : List Str) (tr inv : Table Rx) (key : Str) :
    ∃ n, lists (extend kinds tr inv) key = lists tr key ++ (List.replicate n (lists inv key)).flatten ∧ (n = 0 ↔ ∀ k ∈ kinds, keyOf k ≠ key) := by
  unfold extend
  induction kinds generalizing tr with
  | nil => exact ⟨0, by simp, by simp⟩
  | cons k ks ih =>
    rw [List.foldl_cons]
    obtain ⟨n, h1, h2⟩ := ih (tr.set (keyOf k) ((tr.get? (keyOf k)).getD [] ++ (inv.get? (keyOf k)).getD []))
    rw [lists_set] at h1
    by_cases hk : keyOf k = key
    · rw [if_pos hk] at h1
      refine ⟨n + 1, ?_, ?_⟩
      · rw [h1, hk, List.replicate_succ, List.flatten_cons, List.append_assoc]
        rfl
      · constructor
        · intro h; cases h
        · intro h; exact absurd hk (h k (by simp))
    · rw [if_neg hk] at h1
      refine ⟨n, h1, ?_⟩
      rw [h2]
      constructor
      · intro h x hx
        rcases List.mem_cons.1 hx with rfl | hx
        · exact hk
        · exact h x hx
      · intro h x hx; exact h x (by simp [hx])

theorem extend_nodup (kinds : List Str) (tr inv : Table Rx) (h : tr.keys.Nodup) : (extend kinds tr inv).keys.Nodup := by
  unfold extend
  induction kinds generalizing tr with
  | nil => exact h
  | cons k ks ih => rw [List.foldl_cons]; exact ih _ (Dict.keys_set_nodup _ _ _ h)

/-- What the construction prepares: facts about the triggers `T` to look for and the inverse ones `I`. -/
structure Prepared (E : Engine Rx) (kinds : List Str) (config : Config Rx) (all inv : Table Rx) : Prop where
  keys : all.keys.Nodup
  configured : ∀ t, t ∈ all.flatMap Prod.snd ↔ ∃ s c, config.get? s = some c ∧ upper t.kind ∈ allowedKinds ∧ mkTrigger E s c = .ok t
  normalNames : (((all.flatMap Prod.snd).filter fun t => !t.inverse).map Trigger.shortname).Nodup
  inverseMem : ∀ t, t ∈ inv.flatMap Prod.snd ↔ t ∈ all.flatMap Prod.snd ∧ t.inverse = true
  inverseNames : ((inv.flatMap Prod.snd).map Trigger.shortname).Nodup
  unique : ∀ t ∈ all.flatMap Prod.snd, ∀ u ∈ all.flatMap Prod.snd, t.shortname = u.shortname → t = u
  keyed : ∀ key ts, (key, ts) ∈ all → ∀ t ∈ ts, key = lower t.kind ++ ['s']

theorem build_prepared {E : Engine Rx} {kinds : List Str} {config : Config Rx} {tt : Table Rx × Table Rx} (hc : config.keys.Nodup)
    (hk : setStreams [] config = .ok kinds) (h : build E kinds config = .ok tt) :
    Prepared E kinds config (extend kinds tt.1 tt.2) tt.2 := by
  obtain ⟨k1, k2, k3⟩ := setStreams_ok hk (by simp)
  unfold build at h
  obtain ⟨L, hL, h1, h2, h3, h4⟩ := outer_ok h
  simp only [emptyTable_lists, List.nil_append] at h1 h2
  have n1 := h3 (emptyTable_nodup kinds)
  have n2 := h4 (emptyTable_nodup kinds)
  have hall := extend_nodup kinds tt.1 tt.2 n1
  have hnames : (L.map fun q => q.2.shortname).Nodup := by rw [hL.names]; exact names_nodup k1 hc
  have huniq : ∀ q ∈ L, ∀ r ∈ L, q.2.shortname = r.2.shortname → q = r := fun q hq r hr he =>
    List.inj_on_of_nodup_map hnames hq hr he
  have hmemlist : ∀ key t, t ∈ lists (extend kinds tt.1 tt.2) key ↔ (key, t) ∈ L := by
    intro key t
    obtain ⟨n, e1, e2⟩ := extend_ok kinds tt.1 tt.2 key
    rw [e1, List.mem_append, h1 key, h2 key]
    constructor
    · rintro (h | h)
      · obtain ⟨q, hq, rfl⟩ := List.mem_map.1 h
        obtain ⟨q1, q2⟩ := List.mem_filter.1 hq
        simp only [Bool.and_eq_true, decide_eq_true_eq] at q2
        rw [← q2.1]; exact q1
      · obtain ⟨l, hl, ht⟩ := List.mem_flatten.1 h
        rw [List.eq_of_mem_replicate hl] at ht
        obtain ⟨q, hq, rfl⟩ := List.mem_map.1 ht
        obtain ⟨q1, q2⟩ := List.mem_filter.1 hq
        simp only [Bool.and_eq_true, decide_eq_true_eq] at q2
        rw [← q2.1]; exact q1
    · intro hm
      cases hi : t.inverse with
      | false => exact .inl (List.mem_map.2 ⟨_, List.mem_filter.2 ⟨hm, by simp [hi]⟩, rfl⟩)
      | true =>
        right
        have hn : n ≠ 0 := by
          intro hn
          obtain ⟨k, hkk, _, _, _, _, he⟩ := (hL.mem key t).1 hm
          exact e2.1 hn k hkk he.symm
        refine List.mem_flatten.2 ⟨_, List.mem_replicate.2 ⟨hn, rfl⟩, List.mem_map.2 ⟨_, List.mem_filter.2 ⟨hm, by simp [hi]⟩, rfl⟩⟩
  have hT : ∀ t, t ∈ (extend kinds tt.1 tt.2).flatMap Prod.snd ↔ ∃ key, (key, t) ∈ L := by
    intro t
    rw [mem_flatMap_lists hall]
    constructor
    · rintro ⟨key, h⟩; exact ⟨key, (hmemlist key t).1 h⟩
    · rintro ⟨key, h⟩; exact ⟨key, (hmemlist key t).2 h⟩
  have disj : ∀ (p : Trigger Rx → Bool) (ks : List Str), ks.Nodup →
      (ks.flatMap fun key => ((L.filter fun q => decide (q.1 = key) && p q.2).map Prod.snd).map Trigger.shortname).Nodup := by
    intro p ks hks
    rw [List.nodup_flatMap]
    constructor
    · intro key _
      rw [List.map_map]
      exact (List.filter_sublist.map _).nodup hnames
    · refine hks.imp ?_
      intro a b hab s hsa hsb
      simp only [List.map_map, List.mem_map, List.mem_filter, Bool.and_eq_true, decide_eq_true_eq, Function.comp] at hsa hsb
      obtain ⟨q, ⟨hq, hqa, _⟩, rfl⟩ := hsa
      obtain ⟨r, ⟨hr, hrb, _⟩, he⟩ := hsb
      have := huniq r hr q hq he
      subst this
      exact hab (hqa.symm.trans hrb)
  have hkeyed : ∀ key ts, (key, ts) ∈ extend kinds tt.1 tt.2 → ∀ t ∈ ts, key = lower t.kind ++ ['s'] := by
    intro key ts hm t ht
    have hl : t ∈ lists (extend kinds tt.1 tt.2) key := by
      unfold lists
      rw [Dict.get?_eq_some_of_mem _ hall hm]
      exact ht
    obtain ⟨k, _, p, _, hk1, hk2, he⟩ := (hL.mem key t).1 ((hmemlist key t).1 hl)
    have := (mkTrigger_short hk2).2.1
    rw [hk1] at this
    cases this
    rw [he]; rfl
  refine ⟨hall, ?_, ?_, ?_, ?_, ?_, hkeyed⟩
  · intro t
    rw [hT]
    constructor
    · rintro ⟨key, hm⟩
      obtain ⟨k, hkk, p, hp, hk1, hk2, _⟩ := (hL.mem key t).1 hm
      exact ⟨p.1, p.2, Dict.get?_eq_some_of_mem config hc hp, (mkTrigger_short hk2).2.2, hk2⟩
    · rintro ⟨s, c, hg, hu, hm⟩
      have hmem := Dict.mem_of_get? config hg
      obtain ⟨_, hkc, _⟩ := mkTrigger_short hm
      exact ⟨keyOf t.kind, (hL.mem _ _).2 ⟨t.kind, (k3 _).2 (.inr ⟨hu, _, hmem, hkc⟩), _, hmem, hkc, hm, rfl⟩⟩
  · rw [flatMap_lists hall, List.filter_flatMap, List.map_flatMap]
    have : ∀ key, (lists (extend kinds tt.1 tt.2) key).filter (fun t => !t.inverse) =
        (L.filter fun q => decide (q.1 = key) && !q.2.inverse).map Prod.snd := by
      intro key
      obtain ⟨n, e1, _⟩ := extend_ok kinds tt.1 tt.2 key
      rw [e1, List.filter_append, h1 key]
      have z : ((List.replicate n (lists tt.2 key)).flatten.filter fun t => !t.inverse) = [] := by
        rw [List.filter_eq_nil_iff]
        intro t ht
        obtain ⟨l, hl, ht⟩ := List.mem_flatten.1 ht
        rw [List.eq_of_mem_replicate hl, h2 key] at ht
        obtain ⟨q, hq, rfl⟩ := List.mem_map.1 ht
        have := (List.mem_filter.1 hq).2
        simp only [Bool.and_eq_true] at this
        simp [this.2]
      rw [z, List.append_nil, List.filter_eq_self]
      intro t ht
      obtain ⟨q, hq, rfl⟩ := List.mem_map.1 ht
      have := (List.mem_filter.1 hq).2
      simp only [Bool.and_eq_true] at this
      exact this.2
    simp only [this]
    exact disj (fun t => !t.inverse) _ hall
  · intro t
    rw [hT, mem_flatMap_lists n2]
    constructor
    · rintro ⟨key, h⟩
      rw [h2 key] at h
      obtain ⟨q, hq, rfl⟩ := List.mem_map.1 h
      obtain ⟨q1, q2⟩ := List.mem_filter.1 hq
      simp only [Bool.and_eq_true, decide_eq_true_eq] at q2
      exact ⟨⟨q.1, q1⟩, q2.2⟩
    · rintro ⟨⟨key, hm⟩, hi⟩
      refine ⟨key, ?_⟩
      rw [h2 key]
      exact List.mem_map.2 ⟨_, List.mem_filter.2 ⟨hm, by simp [hi]⟩, rfl⟩
  · rw [flatMap_lists n2, List.map_flatMap]
    simp only [h2]
    exact disj (fun t => t.inverse) _ n2
  · intro t ht u hu he
    obtain ⟨a, ha⟩ := (hT t).1 ht
    obtain ⟨b, hb⟩ := (hT u).1 hu
    have := huniq _ ha _ hb he
    exact congrArg Prod.snd this

/-! ### scanning -/

theorem flat_snd (tr : Table Rx) : (flat tr).map Prod.snd = tr.flatMap Prod.snd := by
  unfold flat
  rw [List.map_flatMap]
  refine List.flatMap_congr fun p _ => ?_
  rw [List.map_map]
  have : (Prod.snd ∘ fun q : Trigger Rx × Nat => ((p.1, q.2), q.1)) = Prod.fst := rfl
  rw [this, List.zipIdx_map_fst]

theorem flat_ids (tr : Table Rx) (h : tr.keys.Nodup) : ((flat tr).map Prod.fst).Nodup := by
  unfold flat
  rw [List.map_flatMap, List.nodup_flatMap]
  constructor
  · intro p _
    rw [List.map_map]
    have : (Prod.fst ∘ fun q : Trigger Rx × Nat => ((p.1, q.2), q.1)) = (fun n : Nat => (p.1, n)) ∘ Prod.snd := rfl
    rw [this, ← List.map_map]
    refine List.Nodup.map (fun a b hab => by simpa using hab) ?_
    rw [List.zipIdx_map_snd]
    exact List.nodup_range'
  · have hp : tr.Pairwise fun a b => a.1 ≠ b.1 := by
      have := h
      unfold Dict.keys List.Nodup at this
      rwa [List.pairwise_map] at this
    refine hp.imp ?_
    intro a b hab x hxa hxb
    simp only [List.map_map, List.mem_map, Function.comp] at hxa hxb
    obtain ⟨q, _, rfl⟩ := hxa
    obtain ⟨r, _, he⟩ := hxb
    simp only [Prod.mk.injEq] at he
    exact hab he.1.symm

theorem checkLine_ok {E : Engine Rx} {t : Trigger Rx} {l : Str} {b : Bool} (h : checkLine E t l = .ok b) : b = decide (Hits E t l) := by
  unfold checkLine at h
  split at h
  · rename_i r hr
    cases h
    have hiff : Hits E t l ↔ E.search r l = true := by unfold Hits; simp [hr]
    cases hs : E.search r l
    · exact (decide_eq_false (by rw [hiff, hs]; simp)).symm
    · exact (decide_eq_true (by rw [hiff, hs])).symm
  · cases h

/-- What one line adds. -/
theorem line_ok {E : Engine Rx} {hist : Bool} {l : Str} {fl : List ((Str × Nat) × Trigger Rx)} {st st' : State Rx}
    (hn : (fl.map Prod.fst).Nodup) (h : Res.foldlM' (checkOne E hist l) st fl = .ok st') :
    let new := fl.filter fun p => decide (p.1 ∉ st.ignore ∧ Hits E p.2 l)
    st'.streams = st.streams ++ (new.filter fun p => !p.2.inverse).map Prod.snd ∧
    st'.inverse = st.inverse ++ (new.filter fun p => p.2.inverse).map (fun p => p.2.shortname) ∧
    st'.ignore = if hist then st.ignore else st.ignore ++ new.map Prod.fst := by
  induction fl generalizing st with
  | nil => cases h; simp
  | cons p ps ih =>
    rw [List.map_cons, List.nodup_cons] at hn
    unfold Res.foldlM' at h
    cases hb : checkOne E hist l st p with
    | exit c => rw [hb] at h; cases h
    | raise e => rw [hb] at h; cases h
    | ok s1 =>
      rw [hb] at h
      have I := ih hn.2 h
      unfold checkOne at hb
      by_cases hig : p.1 ∈ st.ignore
      · rw [if_pos hig] at hb
        cases hb
        have : (p :: ps).filter (fun p => decide (p.1 ∉ st.ignore ∧ Hits E p.2 l)) = ps.filter fun p => decide (p.1 ∉ st.ignore ∧ Hits E p.2 l) := by
          rw [List.filter_cons, if_neg (by simp [hig])]
        simp only [this]
        exact I
      · rw [if_neg hig] at hb
        obtain ⟨b, hb1, hb⟩ := Res.bind_eq_ok.1 hb
        have hbb := checkLine_ok hb1
        by_cases hh : Hits E p.2 l
        · have hbt : b = true := by rw [hbb]; exact decide_eq_true hh
          rw [if_pos hbt] at hb
          cases hb
          have hf : (p :: ps).filter (fun p => decide (p.1 ∉ st.ignore ∧ Hits E p.2 l)) =
              p :: ps.filter fun p => decide (p.1 ∉ st.ignore ∧ Hits E p.2 l) := by
            rw [List.filter_cons, if_pos (decide_eq_true ⟨hig, hh⟩)]
          have hg : ps.filter (fun q => decide (q.1 ∉ (if hist then st.ignore else st.ignore ++ [p.1]) ∧ Hits E q.2 l)) =
              ps.filter fun p => decide (p.1 ∉ st.ignore ∧ Hits E p.2 l) := by
            refine List.filter_congr fun q hq => ?_
            have hne : q.1 ≠ p.1 := fun he => hn.1 (he ▸ List.mem_map.2 ⟨q, hq, rfl⟩)
            cases hist <;> simp [hne]
          simp only [hf]
          simp only [hg] at I
          obtain ⟨i1, i2, i3⟩ := I
          refine ⟨?_, ?_, ?_⟩
          · rw [i1]
            clear ih i1 i2 i3
            cases hpi : p.2.inverse <;> simp [hpi]
          · rw [i2]
            clear ih i1 i2 i3
            cases hpi : p.2.inverse <;> simp [hpi]
          · rw [i3]
            cases hist <;> simp
        · have hbt : b = false := by rw [hbb]; exact decide_eq_false hh
          rw [hbt] at hb
          simp only [Bool.false_eq_true, if_false] at hb
          cases hb
          have : (p :: ps).filter (fun p => decide (p.1 ∉ st.ignore ∧ Hits E p.2 l)) = ps.filter fun p => decide (p.1 ∉ st.ignore ∧ Hits E p.2 l) := by
            rw [List.filter_cons, if_neg (by simp [hh])]
          simp only [this]
          exact I

theorem scan_append {E : Engine Rx} {hist : Bool} {fl : List ((Str × Nat) × Trigger Rx)} {st st' : State Rx} {ls : List Str} {l : Str}
    (h : scan E hist fl st (ls ++ [l]) = .ok st') :
    ∃ s1, scan E hist fl st ls = .ok s1 ∧ Res.foldlM' (checkOne E hist l) s1 fl = .ok st' := by
  unfold scan at h
  rw [Res.foldlM'_append] at h
  obtain ⟨s1, h1, h2⟩ := Res.bind_eq_ok.1 h
  refine ⟨s1, h1, ?_⟩
  unfold Res.foldlM' at h2
  cases hb : Res.foldlM' (checkOne E hist l) s1 fl with
  | ok s2 => rw [hb] at h2; exact h2
  | exit c => rw [hb] at h2; cases h2
  | raise e => rw [hb] at h2; cases h2

/-- Detected inverse streams, for both modes; in the default mode also the ignored triggers. -/
theorem scan_inverse {E : Engine Rx} {hist : Bool} {fl : List ((Str × Nat) × Trigger Rx)} {st : State Rx} {ls : List Str}
    (hn : (fl.map Prod.fst).Nodup) (h : scan E hist fl {} ls = .ok st) :
    (∀ p ∈ fl, p.1 ∈ st.ignore ↔ hist = false ∧ ∃ l ∈ ls, Hits E p.2 l) ∧
    (∀ s, s ∈ st.inverse ↔ ∃ p ∈ fl, p.2.inverse = true ∧ p.2.shortname = s ∧ ∃ l ∈ ls, Hits E p.2 l) := by
  induction ls using List.reverseRecOn generalizing st with
  | nil => cases h; simp
  | append_singleton ls l ih =>
    obtain ⟨s1, h1, h2⟩ := scan_append h
    obtain ⟨i1, i2⟩ := ih h1
    obtain ⟨_, e2, e3⟩ := line_ok hn h2
    have inj : ∀ p ∈ fl, ∀ q ∈ fl, p.1 = q.1 → p = q := fun p hp q hq he => List.inj_on_of_nodup_map hn hp hq he
    have hnew : ∀ p ∈ fl, p.1 ∈ (fl.filter fun p => decide (p.1 ∉ s1.ignore ∧ Hits E p.2 l)).map Prod.fst ↔ p.1 ∉ s1.ignore ∧ Hits E p.2 l := by
      intro p hp
      constructor
      · intro hm
        obtain ⟨q, hq, he⟩ := List.mem_map.1 hm
        obtain ⟨hq1, hq2⟩ := List.mem_filter.1 hq
        have := inj q hq1 p hp he
        subst this
        exact of_decide_eq_true hq2
      · intro hc
        exact List.mem_map.2 ⟨p, List.mem_filter.2 ⟨hp, decide_eq_true hc⟩, rfl⟩
    constructor
    · intro p hp
      rw [e3]
      cases hist with
      | true => simp only [if_true, i1 p hp]; simp
      | false =>
        simp only [Bool.false_eq_true, if_false, List.mem_append, i1 p hp, hnew p hp, true_and, List.mem_singleton]
        constructor
        · rintro (⟨x, hx, hh⟩ | ⟨_, hh⟩)
          · exact ⟨x, .inl hx, hh⟩
          · exact ⟨l, .inr rfl, hh⟩
        · rintro ⟨x, hx | rfl, hh⟩
          · exact .inl ⟨x, hx, hh⟩
          · by_cases hc : ∃ y ∈ ls, Hits E p.2 y
            · exact .inl hc
            · exact .inr ⟨hc, hh⟩
    · intro s
      rw [e2, List.mem_append, i2 s]
      simp only [List.mem_map, List.mem_filter, decide_eq_true_eq]
      constructor
      · rintro (⟨p, hp, hi, hs, x, hx, hh⟩ | ⟨p, ⟨⟨hp, _, hh⟩, hi⟩, hs⟩)
        · exact ⟨p, hp, hi, hs, x, by simp [hx], hh⟩
        · exact ⟨p, hp, hi, hs, l, by simp, hh⟩
      · rintro ⟨p, hp, hi, hs, x, hx, hh⟩
        rcases List.mem_append.1 hx with hx | hx
        · exact .inl ⟨p, hp, hi, hs, x, hx, hh⟩
        · simp only [List.mem_singleton] at hx
          subst hx
          by_cases hc : ∃ y ∈ ls, Hits E p.2 y
          · exact .inl ⟨p, hp, hi, hs, hc⟩
          · refine .inr ⟨p, ⟨⟨hp, ?_, hh⟩, hi⟩, hs⟩
            rw [i1 p hp]
            rintro ⟨_, hc'⟩; exact hc hc'

theorem scan_history {E : Engine Rx} {fl : List ((Str × Nat) × Trigger Rx)} {st : State Rx} {ls : List Str}
    (hn : (fl.map Prod.fst).Nodup) (h : scan E true fl {} ls = .ok st) :
    st.streams = ls.flatMap fun l => (fl.map Prod.snd).filter fun t => decide (t.inverse = false ∧ Hits E t l) := by
  induction ls using List.reverseRecOn generalizing st with
  | nil => cases h; rfl
  | append_singleton ls l ih =>
    obtain ⟨s1, h1, h2⟩ := scan_append h
    obtain ⟨e1, _, _⟩ := line_ok hn h2
    obtain ⟨i1, _⟩ := scan_inverse hn h1
    rw [e1, ih h1, List.flatMap_append]
    congr 1
    simp only [List.flatMap_cons, List.flatMap_nil, List.append_nil, List.filter_map, List.filter_filter]
    congr 1
    refine List.filter_congr fun p hp => ?_
    have : p.1 ∉ s1.ignore := by rw [i1 p hp]; simp
    simp only [Function.comp, this, not_false_eq_true, true_and]
    cases p.2.inverse <;> simp

/-- The place of the first line in which a trigger is found. -/
def first (E : Engine Rx) (lines : List Str) (t : Trigger Rx) : Nat := lines.findIdx fun l => decide (Hits E t l)

theorem scan_once {E : Engine Rx} {fl : List ((Str × Nat) × Trigger Rx)} {st : State Rx} {ls : List Str}
    (hn : (fl.map Prod.fst).Nodup) (hs : (((fl.map Prod.snd).filter fun t => !t.inverse).map Trigger.shortname).Nodup)
    (h : scan E false fl {} ls = .ok st) :
    (∀ t, t ∈ st.streams ↔ t ∈ fl.map Prod.snd ∧ t.inverse = false ∧ ∃ l ∈ ls, Hits E t l) ∧
    (st.streams.map Trigger.shortname).Nodup ∧
    st.streams.Pairwise (fun a b => first E ls a ≤ first E ls b) := by
  induction ls using List.reverseRecOn generalizing st with
  | nil => cases h; simp
  | append_singleton ls l ih =>
    obtain ⟨s1, h1, h2⟩ := scan_append h
    obtain ⟨e1, _, _⟩ := line_ok hn h2
    obtain ⟨i1, _⟩ := scan_inverse hn h1
    obtain ⟨j1, j2, j3⟩ := ih h1
    have hnew : ∀ t, t ∈ ((fl.filter fun p => decide (p.1 ∉ s1.ignore ∧ Hits E p.2 l)).filter fun p => !p.2.inverse).map Prod.snd ↔
        t ∈ fl.map Prod.snd ∧ t.inverse = false ∧ Hits E t l ∧ ∀ y ∈ ls, ¬ Hits E t y := by
      intro t
      simp only [List.mem_map, List.mem_filter, decide_eq_true_eq, Bool.not_eq_true']
      constructor
      · rintro ⟨p, ⟨⟨hp, hi, hh⟩, hv⟩, rfl⟩
        rw [i1 p hp] at hi
        exact ⟨⟨p, hp, rfl⟩, hv, hh, fun y hy hyh => hi ⟨rfl, y, hy, hyh⟩⟩
      · rintro ⟨⟨p, hp, rfl⟩, hv, hh, hno⟩
        refine ⟨p, ⟨⟨hp, ?_, hh⟩, hv⟩, rfl⟩
        rw [i1 p hp]
        rintro ⟨_, y, hy, hyh⟩
        exact hno y hy hyh
    have hfirst_old : ∀ t, (∃ y ∈ ls, Hits E t y) → first E (ls ++ [l]) t = first E ls t ∧ first E ls t < ls.length := by
      rintro t ⟨y, hy, hh⟩
      have hlt : first E ls t < ls.length := List.findIdx_lt_length_of_exists ⟨y, hy, decide_eq_true hh⟩
      refine ⟨?_, hlt⟩
      unfold first at *
      rw [List.findIdx_append, if_pos hlt]
    have hfirst_new : ∀ t, Hits E t l → (∀ y ∈ ls, ¬ Hits E t y) → first E (ls ++ [l]) t = ls.length := by
      intro t hh hno
      have hge : ls.findIdx (fun l => decide (Hits E t l)) = ls.length := by
        rw [List.findIdx_eq_length]
        intro y hy; exact decide_eq_false (hno y hy)
      unfold first
      rw [List.findIdx_append, hge, if_neg (by omega)]
      simp [List.findIdx_cons, hh]
    refine ⟨?_, ?_, ?_⟩
    · intro t
      rw [e1, List.mem_append, j1, hnew]
      constructor
      · rintro (⟨a, b, y, hy, hh⟩ | ⟨a, b, c, _⟩)
        · exact ⟨a, b, y, by simp [hy], hh⟩
        · exact ⟨a, b, l, by simp, c⟩
      · rintro ⟨a, b, y, hy, hh⟩
        by_cases hc : ∃ z ∈ ls, Hits E t z
        · exact .inl ⟨a, b, hc⟩
        · rcases List.mem_append.1 hy with hy | hy
          · exact absurd ⟨y, hy, hh⟩ hc
          · simp only [List.mem_singleton] at hy
            subst hy
            exact .inr ⟨a, b, hh, fun z hz hzh => hc ⟨z, hz, hzh⟩⟩
    · rw [e1, List.map_append, List.nodup_append]
      refine ⟨j2, ?_, ?_⟩
      · have sub : (((fl.filter fun p => decide (p.1 ∉ s1.ignore ∧ Hits E p.2 l)).filter fun p => !p.2.inverse).map Prod.snd).Sublist
            ((fl.map Prod.snd).filter fun t => !t.inverse) := by
          rw [List.filter_map]
          exact ((List.filter_sublist).filter _).map _
        exact (sub.map _).nodup hs
      · intro a ha b hb hab
        subst hab
        obtain ⟨t, ht, rfl⟩ := List.mem_map.1 ha
        obtain ⟨u, hu, he⟩ := List.mem_map.1 hb
        obtain ⟨a1, a2, y, hy, hh⟩ := (j1 t).1 ht
        obtain ⟨b1, b2, _, b4⟩ := (hnew u).1 hu
        have : u = t := List.inj_on_of_nodup_map hs (List.mem_filter.2 ⟨b1, by simp [b2]⟩) (List.mem_filter.2 ⟨a1, by simp [a2]⟩) he
        subst this
        exact b4 y hy hh
    · rw [e1, List.pairwise_append]
      refine ⟨?_, ?_, ?_⟩
      · refine j3.imp_of_mem ?_
        intro a b ha hb hab
        rw [(hfirst_old a ((j1 a).1 ha).2.2).1, (hfirst_old b ((j1 b).1 hb).2.2).1]
        exact hab
      · apply List.pairwise_of_forall_mem_list
        intro a ha b hb
        obtain ⟨_, _, a3, a4⟩ := (hnew a).1 ha
        obtain ⟨_, _, b3, b4⟩ := (hnew b).1 hb
        rw [hfirst_new a a3 a4, hfirst_new b b3 b4]
        exact Nat.le_refl _
      · intro a ha b hb
        obtain ⟨_, _, b3, b4⟩ := (hnew b).1 hb
        obtain ⟨h1, h2⟩ := hfirst_old a ((j1 a).1 ha).2.2
        rw [hfirst_new b b3 b4, h1]
        omega

/-! ### the properties -/

/-- The configuration in force as a dictionary. -/
def effective (dflt : Config Rx) (user : Option (Config Rx)) : Config Rx :=
  match user with
  | some u => update dflt u
  | none => dflt

/-- The parts of a successful construction. -/
theorem init_ok {E : Engine Rx} {dflt : Config Rx} {user : Option (Config Rx)} {hist : Bool} {path : Option (Option Str)} {handler : Option Str}
    {o : Object Rx} (h : init E dflt user hist path handler = .ok o) :
    ∃ text kinds tt st, textOf path handler = some text ∧ setStreams [] (effective dflt user) = .ok kinds ∧
      build E kinds (effective dflt user) = .ok tt ∧ scan E hist (flat (extend kinds tt.1 tt.2)) {} (readlines text) = .ok st ∧
      o = ⟨extend kinds tt.1 tt.2, kinds, st.streams ++ undetected tt.2 st.inverse⟩ := by
  unfold init at h
  split at h
  · cases h
  · obtain ⟨kinds, h1, h⟩ := Res.bind_eq_ok.1 h
    obtain ⟨tt, h2, h⟩ := Res.bind_eq_ok.1 h
    obtain ⟨lines, h3, h⟩ := Res.bind_eq_ok.1 h
    obtain ⟨st, h4, h⟩ := Res.bind_eq_ok.1 h
    cases h
    have : ∃ text, textOf path handler = some text ∧ lines = readlines text := by
      unfold textOf
      cases handler with
      | some t => cases h3; exact ⟨t, rfl, rfl⟩
      | none =>
        simp only at h3 ⊢
        match path with
        | none => cases h3
        | some none => cases h3
        | some (some t) => cases h3; exact ⟨t, rfl, rfl⟩
    obtain ⟨text, ht, rfl⟩ := this
    exact ⟨text, kinds, tt, st, ht, h1, h2, h4, rfl⟩

theorem effective_nodup (dflt : Config Rx) (user : Option (Config Rx)) (hd : dflt.keys.Nodup) : (effective dflt user).keys.Nodup := by
  unfold effective
  split
  · exact update_nodup _ _ hd
  · exact hd

theorem effective_get? (dflt : Config Rx) (user : Option (Config Rx)) (hu : ∀ u, user = some u → u.keys.Nodup) (s : Str) :
    (effective dflt user).get? s = entry dflt user s := by
  unfold effective entry
  split
  · rw [update_get? _ _ (hu _ rfl)]
  · rfl

theorem undetected_inverse {E : Engine Rx} {kinds : List Str} {c : Config Rx} {all inv : Table Rx} (P : Prepared E kinds c all inv) {det : List Str}
    {t : Trigger Rx} (ht : t ∈ undetected inv det) : t.inverse = true :=
  ((P.inverseMem t).1 (List.mem_filter.1 ht).1).2

theorem filter_normal {E : Engine Rx} {kinds : List Str} {c : Config Rx} {all inv : Table Rx} (P : Prepared E kinds c all inv) {ss : List (Trigger Rx)}
    (hss : ∀ t ∈ ss, t.inverse = false) (det : List Str) :
    ((ss ++ undetected inv det).filter fun t => !t.inverse) = ss := by
  rw [List.filter_append]
  have h1 : (undetected inv det).filter (fun t => !t.inverse) = [] := by
    rw [List.filter_eq_nil_iff]
    intro t ht
    simp [undetected_inverse P ht]
  rw [h1, List.append_nil, List.filter_eq_self]
  intro t ht
  simp [hss t ht]

/-- C33: without history, the reported non-inverse streams are exactly the configured ones some line of the text matches, each once,
in the order of their first matching lines. -/
theorem C33_once (E : Engine Rx) (dflt : Config Rx) (user : Option (Config Rx)) (path : Option (Option Str)) (handler : Option Str) (o : Object Rx)
    (hd : dflt.keys.Nodup) (h : init E dflt user false path handler = .ok o) :
    ∃ text, textOf path handler = some text ∧
    (∀ t, t ∈ o.entries ∧ t.inverse = false ↔ t ∈ o.triggers ∧ t.inverse = false ∧ ∃ l ∈ readlines text, Hits E t l) ∧
    ((o.entries.filter fun t => !t.inverse).map Trigger.shortname).Nodup ∧
    (o.entries.filter fun t => !t.inverse).Pairwise (fun a b => first E (readlines text) a ≤ first E (readlines text) b) := by
  obtain ⟨text, kinds, tt, st, ht, h1, h2, h3, rfl⟩ := init_ok h
  have P := build_prepared (effective_nodup dflt user hd) h1 h2
  have hids := flat_ids _ P.keys
  have hsn := P.normalNames
  rw [← flat_snd] at hsn
  obtain ⟨a1, a2, a3⟩ := scan_once hids hsn h3
  have hf := filter_normal P (fun t ht => ((a1 t).1 ht).2.1) st.inverse
  refine ⟨text, ht, ?_, ?_, ?_⟩
  · intro t
    show t ∈ st.streams ++ undetected tt.2 st.inverse ∧ _ ↔ _
    unfold Object.triggers
    rw [← flat_snd, ← a1 t]
    constructor
    · rintro ⟨hm, hi⟩
      rcases List.mem_append.1 hm with hm | hm
      · exact hm
      · rw [undetected_inverse P hm] at hi; cases hi
    · intro hm
      exact ⟨List.mem_append_left _ hm, ((a1 t).1 hm).2.1⟩
  · show (List.map _ (List.filter _ (st.streams ++ undetected tt.2 st.inverse))).Nodup
    rw [hf]; exact a2
  · show List.Pairwise _ (List.filter _ (st.streams ++ undetected tt.2 st.inverse))
    rw [hf]; exact a3

/-- C34: with history, the reported non-inverse streams are, line by line, the configured triggers found in the line, in the order
of the configuration. -/
theorem C34_history (E : Engine Rx) (dflt : Config Rx) (user : Option (Config Rx)) (path : Option (Option Str)) (handler : Option Str) (o : Object Rx)
    (hd : dflt.keys.Nodup) (h : init E dflt user true path handler = .ok o) :
    ∃ text, textOf path handler = some text ∧
    (o.entries.filter fun t => !t.inverse) =
      (readlines text).flatMap fun l => o.triggers.filter fun t => decide (t.inverse = false ∧ Hits E t l) := by
  obtain ⟨text, kinds, tt, st, ht, h1, h2, h3, rfl⟩ := init_ok h
  have P := build_prepared (effective_nodup dflt user hd) h1 h2
  have hids := flat_ids _ P.keys
  have hst := scan_history hids h3
  refine ⟨text, ht, ?_⟩
  unfold Object.triggers
  show List.filter _ (st.streams ++ undetected tt.2 st.inverse) = _
  rw [filter_normal P _ st.inverse, hst, flat_snd]
  intro t htm
  rw [hst] at htm
  obtain ⟨l, _, hl⟩ := List.mem_flatMap.1 htm
  exact (of_decide_eq_true (List.mem_filter.1 hl).2).1

/-- C35: an inverse stream is reported once if no line of the text matches it, and not at all otherwise; with and without history. -/
theorem C35_inverse (E : Engine Rx) (dflt : Config Rx) (user : Option (Config Rx)) (hist : Bool) (path : Option (Option Str)) (handler : Option Str)
    (o : Object Rx) (hd : dflt.keys.Nodup) (h : init E dflt user hist path handler = .ok o) (t : Trigger Rx) (htt : t ∈ o.triggers)
    (hi : t.inverse = true) :
    ∃ text, textOf path handler = some text ∧
    ((∀ l ∈ readlines text, ¬ Hits E t l) → (o.entries.filter fun u => decide (u.shortname = t.shortname)) = [t]) ∧
    ((∃ l ∈ readlines text, Hits E t l) → ∀ u ∈ o.entries, u.shortname ≠ t.shortname) := by
  obtain ⟨text, kinds, tt, st, ht, h1, h2, h3, rfl⟩ := init_ok h
  have P := build_prepared (effective_nodup dflt user hd) h1 h2
  have hids := flat_ids _ P.keys
  obtain ⟨_, j2⟩ := scan_inverse hids h3
  have hmem : ∀ u, (∃ p ∈ flat (extend kinds tt.1 tt.2), p.2 = u) ↔ u ∈ (extend kinds tt.1 tt.2).flatMap Prod.snd := by
    intro u
    rw [← flat_snd, List.mem_map]
  have hsn := P.normalNames
  rw [← flat_snd] at hsn
  have hst : ∀ u ∈ st.streams, u ∈ (extend kinds tt.1 tt.2).flatMap Prod.snd ∧ u.inverse = false := by
    intro u hu
    cases hist with
    | false =>
      obtain ⟨a1, _, _⟩ := scan_once hids hsn h3
      obtain ⟨b1, b2, _⟩ := (a1 u).1 hu
      exact ⟨by rw [← flat_snd]; exact b1, b2⟩
    | true =>
      rw [scan_history hids h3] at hu
      obtain ⟨l, _, hl⟩ := List.mem_flatMap.1 hu
      obtain ⟨b1, b2⟩ := List.mem_filter.1 hl
      exact ⟨by rw [← flat_snd]; exact b1, (of_decide_eq_true b2).1⟩
  have hnot : ∀ u ∈ st.streams, u.shortname ≠ t.shortname := by
    intro u hu he
    have := P.unique u (hst u hu).1 t htt he
    subst this
    rw [(hst u hu).2] at hi
    cases hi
  have hdet : t.shortname ∈ st.inverse ↔ ∃ l ∈ readlines text, Hits E t l := by
    rw [j2]
    constructor
    · rintro ⟨p, hp, _, hs, hh⟩
      have := P.unique p.2 ((hmem _).1 ⟨p, hp, rfl⟩) t htt hs
      rw [this] at hh
      exact hh
    · intro hh
      obtain ⟨p, hp, he⟩ := (hmem t).2 htt
      exact ⟨p, hp, by rw [he]; exact hi, by rw [he], by rw [he]; exact hh⟩
  refine ⟨text, ht, ?_, ?_⟩
  · intro hno
    show List.filter _ (st.streams ++ undetected tt.2 st.inverse) = [t]
    rw [List.filter_append]
    have e1 : st.streams.filter (fun u => decide (u.shortname = t.shortname)) = [] := by
      rw [List.filter_eq_nil_iff]
      intro u hu
      simp [hnot u hu]
    rw [e1, List.nil_append]
    have hnd : t.shortname ∉ st.inverse := by
      rw [hdet]; rintro ⟨l, hl, hh⟩; exact hno l hl hh
    have htm : t ∈ undetected tt.2 st.inverse :=
      List.mem_filter.2 ⟨(P.inverseMem t).2 ⟨htt, hi⟩, decide_eq_true hnd⟩
    have hn : ((undetected tt.2 st.inverse).map Trigger.shortname).Nodup := (List.filter_sublist.map _).nodup P.inverseNames
    generalize undetected tt.2 st.inverse = U at htm hn
    clear e1
    induction U with
    | nil => cases htm
    | cons u us ih =>
      rw [List.map_cons, List.nodup_cons] at hn
      rcases List.mem_cons.1 htm with rfl | htm
      · rw [List.filter_cons, if_pos (by simp)]
        congr 1
        rw [List.filter_eq_nil_iff]
        intro v hv
        simp only [decide_eq_true_eq]
        intro he
        exact hn.1 (he ▸ List.mem_map.2 ⟨v, hv, rfl⟩)
      · rw [List.filter_cons, if_neg, ih htm hn.2]
        simp only [decide_eq_true_eq]
        intro he
        exact hn.1 (he ▸ List.mem_map.2 ⟨t, htm, rfl⟩)
  · intro hyes u hu
    rcases List.mem_append.1 hu with hu | hu
    · exact hnot u hu
    · intro he
      have := of_decide_eq_true (List.mem_filter.1 hu).2
      rw [he] at this
      exact this (hdet.2 hyes)

/-- C36: a trigger is made of an entry exactly if the entry describes it: the keys `kind`, `regex`, `message` are there, there is no
unknown key, the values have the right types, and the optional ones have their defaults. -/
theorem C36_entry (E : Engine Rx) (s : Str) (c : Conf Rx) (t : Trigger Rx) : mkTrigger E s c = .ok t ↔ Describes E s c t := by
  have hb : ∀ {x : Option (Obj Rx)} {b : Bool}, setBool x = .ok b ↔ x = none ∧ b = false ∨ x = some (.bool b) := by
    intro x b
    match x with
    | none => simp [setBool, eq_comm]
    | some (.bool b') => simp [setBool]
    | some (.str _) => simp [setBool]
    | some (.rx _) => simp [setBool]
    | some .none => simp [setBool]
    | some .other => simp [setBool]
  have hl : ∀ {x : Option (Obj Rx)} {l : Str}, setLocation x = .ok l ↔
      x = none ∧ l = c!"STDOUT" ∨ x = some (.str l) ∧ (l = c!"STDOUT" ∨ l = c!"STDERR") := by
    intro x l
    match x with
    | none => simp [setLocation, eq_comm]
    | some (.str s') =>
      unfold setLocation
      simp only [reduceCtorEq, false_and, false_or, Option.some.injEq, Obj.str.injEq]
      constructor
      · intro h
        split at h
        · rename_i hm
          cases h
          exact ⟨rfl, by simpa [allowedLocations] using hm⟩
        · cases h
      · rintro ⟨rfl, hm⟩
        rw [if_pos (by simpa [allowedLocations] using hm)]
    | some (.bool _) => simp [setLocation]
    | some (.rx _) => simp [setLocation]
    | some .none => simp [setLocation]
    | some .other => simp [setLocation]
  have hs : ∀ {x : Option (Obj Rx)} {l : Option Str}, setSuggestion x = .ok l ↔
      (x = none ∨ x = some .none) ∧ l = none ∨ ∃ s, x = some (.str s) ∧ l = some s := by
    intro x l
    match x with
    | none => simp [setSuggestion, eq_comm]
    | some (.str s') => simp [setSuggestion, eq_comm]
    | some (.bool _) => simp [setSuggestion]
    | some (.rx _) => simp [setSuggestion]
    | some .none => simp [setSuggestion, eq_comm]
    | some .other => simp [setSuggestion]
  have hm : ∀ {x : Obj Rx} {l : Str}, setMessage x = .ok l ↔ x = .str l := by
    intro x l
    match x with
    | .str s' => simp [setMessage]
    | .bool _ => simp [setMessage]
    | .rx _ => simp [setMessage]
    | .none => simp [setMessage]
    | .other => simp [setMessage]
  have hk : ∀ {x : Obj Rx} {l : Str}, setKind x = .ok l ↔ x = .str l ∧ (upper l = c!"ERROR" ∨ upper l = c!"WARNING") := by
    intro x l
    match x with
    | .str s' =>
      unfold setKind
      simp only [Obj.str.injEq]
      constructor
      · intro h
        split at h
        · rename_i hm
          cases h
          exact ⟨rfl, by simpa [allowedKinds] using hm⟩
        · cases h
      · rintro ⟨rfl, hm⟩
        rw [if_pos (by simpa [allowedKinds] using hm)]
    | .bool _ => simp [setKind]
    | .rx _ => simp [setKind]
    | .none => simp [setKind]
    | .other => simp [setKind]
  have hr : ∀ {x : Obj Rx} {l : Option Rx}, setRegex E x = .ok l ↔
      (∃ p r, x = .str p ∧ E.compile p = some r ∧ l = some r) ∨ (∃ r, x = .rx r ∧ l = some r) ∨
      (∃ b, x = .bool b) ∧ l = none ∨ x = .none ∧ l = none ∨ x = .other ∧ l = none := by
    intro x l
    match x with
    | .str s' =>
      unfold setRegex
      cases hc : E.compile s' with
      | none => simp [hc]
      | some r => simp [hc, eq_comm]
    | .bool _ => simp [setRegex, eq_comm]
    | .rx _ => simp [setRegex, eq_comm]
    | .none => simp [setRegex, eq_comm]
    | .other => simp [setRegex, eq_comm]
  constructor
  · intro h
    unfold mkTrigger at h
    split at h
    · rename_i hkeys
      split at h
      · rename_i k r m hk0 hr0 hm0
        obtain ⟨kind, h1, h⟩ := Res.bind_eq_ok.1 h
        obtain ⟨rx, h2, h⟩ := Res.bind_eq_ok.1 h
        obtain ⟨msg, h3, h⟩ := Res.bind_eq_ok.1 h
        obtain ⟨sug, h4, h⟩ := Res.bind_eq_ok.1 h
        obtain ⟨loc, h5, h⟩ := Res.bind_eq_ok.1 h
        obtain ⟨rec, h6, h⟩ := Res.bind_eq_ok.1 h
        obtain ⟨inv, h7, h⟩ := Res.bind_eq_ok.1 h
        cases h
        obtain ⟨rfl, h1'⟩ := hk.1 h1
        obtain rfl := hm.1 h3
        have h2 := hr.1 h2
        refine ⟨rfl, ?_, hk0, h1', ?_, hm0, hs.1 h4, hl.1 h5, hb.1 h6, hb.1 h7⟩
        · intro k hk
          rw [List.all_eq_true] at hkeys
          exact of_decide_eq_true (hkeys k hk)
        · rw [hr0]
          simpa using h2
      · cases h
    · cases h
  · intro D
    have hall : (c.keys.all fun k => decide (k ∈ allowedKeys)) = true := by
      rw [List.all_eq_true]
      intro k hk
      exact decide_eq_true (D.known k hk)
    unfold mkTrigger
    rw [if_pos hall, D.kind, D.message]
    cases hx : c.get? c!"regex" with
    | none => have := D.regex; rw [hx] at this; simp at this
    | some x =>
      have h2 : setRegex E x = .ok t.regex := by
        rw [hr]
        have := D.regex
        rw [hx] at this
        simpa using this
      simp only
      rw [hk.2 ⟨rfl, D.supported⟩, Res.ok_bind, h2, Res.ok_bind, hm.2 rfl, Res.ok_bind, hs.2 D.suggestion, Res.ok_bind, hl.2 D.location,
        Res.ok_bind, hb.2 D.recover, Res.ok_bind, hb.2 D.inverse, Res.ok_bind, ← D.shortname]

/-- C36: the triggers looked for are exactly those made of the configuration in force, in which an entry of the user replaces the
standard entry of the same short name and all others are as they were; only they are reported, and each is filed under its kind. -/
theorem C36_configuration (E : Engine Rx) (dflt : Config Rx) (user : Option (Config Rx)) (hist : Bool) (path : Option (Option Str))
    (handler : Option Str) (o : Object Rx) (hd : dflt.keys.Nodup) (hu : ∀ u, user = some u → u.keys.Nodup)
    (h : init E dflt user hist path handler = .ok o) :
    (∀ t, t ∈ o.triggers ↔ ∃ c, entry dflt user t.shortname = some c ∧ Describes E t.shortname c t) ∧
    (∀ t ∈ o.entries, t ∈ o.triggers) ∧ (∀ key ts, (key, ts) ∈ o.configured → ∀ t ∈ ts, key = lower t.kind ++ ['s']) := by
  obtain ⟨text, kinds, tt, st, ht, h1, h2, h3, rfl⟩ := init_ok h
  have P := build_prepared (effective_nodup dflt user hd) h1 h2
  have hids := flat_ids _ P.keys
  have hsn := P.normalNames
  rw [← flat_snd] at hsn
  refine ⟨?_, ?_, P.keyed⟩
  · intro t
    refine (P.configured t).trans ?_
    constructor
    · rintro ⟨s, c, hg, hk, hm⟩
      have hs := (mkTrigger_short hm).1
      subst hs
      rw [effective_get? dflt user hu] at hg
      exact ⟨c, hg, (C36_entry ..).1 hm⟩
    · rintro ⟨c, hg, D⟩
      rw [← effective_get? dflt user hu] at hg
      exact ⟨_, c, hg, by simpa [allowedKinds] using D.supported, (C36_entry ..).2 D⟩
  · intro t htm
    rcases List.mem_append.1 htm with htm | htm
    · show t ∈ (extend kinds tt.1 tt.2).flatMap Prod.snd
      cases hist with
      | false =>
        obtain ⟨a1, _, _⟩ := scan_once hids hsn h3
        rw [← flat_snd]; exact ((a1 t).1 htm).1
      | true =>
        rw [scan_history hids h3] at htm
        obtain ⟨l, _, hl⟩ := List.mem_flatMap.1 htm
        rw [← flat_snd]; exact (List.mem_filter.1 hl).1
    · exact ((P.inverseMem t).1 (List.mem_filter.1 htm).1).1

/-! ### non-vacuity -/

/-- Plain substring search as engine. -/
def plain : Engine Str := ⟨some, fun r l => contains r l⟩

def exampleDefault : Config Str :=
  [(c!"nostart", [(c!"kind", .str c!"ERROR"), (c!"regex", .str c!"vasp."), (c!"message", .str c!"not started"), (c!"inverse", .bool true)]),
   (c!"brmix", [(c!"kind", .str c!"ERROR"), (c!"regex", .str c!"BRMIX"), (c!"message", .str c!"mixing")]),
   (c!"odd", [(c!"kind", .str c!"NOTE"), (c!"regex", .str c!"b"), (c!"message", .str c!"never")])]

def exampleUser : Config Str := [(c!"mine", [(c!"kind", .str c!"Warning"), (c!"regex", .str c!"my"), (c!"message", .str c!"own")])]

/-- The short names reported. -/
def names (r : Res (Object Str)) : Res (List Str) := r >>= fun o => .ok (o.entries.map Trigger.shortname)

example : names (init plain exampleDefault (some exampleUser) false none (some c!"my\nBRMIX\nmy BRMIX\n")) =
    .ok [c!"mine", c!"brmix", c!"nostart"] := by decide +kernel
example : names (init plain exampleDefault (some exampleUser) true none (some c!"my\nBRMIX\nmy BRMIX vasp.6\n")) =
    .ok [c!"mine", c!"brmix", c!"brmix", c!"mine"] := by decide +kernel
example : exampleDefault.keys.Nodup := by decide +kernel

end Verif.Stream
