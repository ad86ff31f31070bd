import Verif.Props.IncarMap
import Verif.Props.IncarWrite
/-! # C82: an INCAR object made from the dictionary of another one -/
set_option autoImplicit false
namespace Verif.Incar
open Verif Verif.Utils

/-- What a reachable object holds under a tag: a proper tag, and no text that would be read differently a second time. -/
structure Kept (e : Str × Item) : Prop where
  tag : e.2.tag = e.1
  token : Token e.1
  low : lower e.1 = e.1
  noObject : e.2.value ≠ .other
  noMark : ∀ s, e.2.value = .one (.str s) → '#' ∉ s
  raw : ∀ s, e.2.value = .one (.str s) → e.1 ∈ rawTags → strip s = s
  text : ∀ s, e.2.value = .one (.str s) → e.1 ∉ rawTags →
    words s = [s] ∧ testStringContent s = .string ∧ testStringForBool s = .str s

theorem testStringForBool_str {s t : Str} (h : testStringForBool s = .str t) : t = s := by
  unfold testStringForBool at h
  split at h
  · cases h
  · split at h
    · cases h
    · exact (Scalar.str.inj h).symm

theorem cleanToken_str {F : FloatEnv} {w t : Str} {k : Kind} (h : cleanToken F w = .ok (k, .str t)) :
    t = w ∧ testStringContent w = .string ∧ testStringForBool w = .str w := by
  unfold cleanToken at h
  split at h
  · split at h <;> cases h
  · split at h <;> cases h
  · rename_i hk
    have h2 := congrArg Prod.snd (Res.ok.inj h)
    simp only at h2
    have := testStringForBool_str h2
    subst this
    exact ⟨rfl, hk, h2⟩

theorem cleanString_str {F : FloatEnv} {s t : Str} (h : cleanString F s = .ok (.one (.str t))) :
    t ∈ words s ∧ testStringContent t = .string ∧ testStringForBool t = .str t := by
  unfold cleanString at h
  split at h
  · rename_i r hr
    have hf := Res.mapM'_eq_ok.1 hr
    simp only at h
    split at h
    · have hv := Res.ok.inj h
      split at hv
      · rename_i x hx
        cases hv
        match r, hx, hf with
        | [(k, x)], hx, hf =>
          simp only [List.map_cons, List.map_nil, List.cons.injEq, and_true] at hx
          subst hx
          cases hw : words s with
          | nil => rw [hw] at hf; cases hf
          | cons w ws =>
            rw [hw] at hf
            cases hf with
            | cons h1 h2 =>
              obtain ⟨rfl, h3, h4⟩ := cleanToken_str h1
              exact ⟨by simp, h3, h4⟩
      · cases hv
    · cases h
  · cases h
  · cases h

theorem cleanEntry_kept {F : FloatEnv} {tag : Str} {v : Value} {c : Option Str} {i : Item} (h : cleanEntry F tag v c = .ok i)
    (hv : ∀ s, v = .one (.str s) → '#' ∉ s) : Kept (i.tag, i) := by
  unfold cleanEntry at h
  split at h
  · cases h
  · rename_i t ts ht
    have htok : Token (lower t) := Token.lower (words_mem (s := tag) (by rw [ht]; simp))
    simp only at h
    split at h
    · rename_i s
      split at h
      · rename_i hraw
        cases Res.ok.inj h
        refine ⟨rfl, htok, lower_idem t, by simp, ?_, ?_, ?_⟩
        · intro s' hs'
          cases hs'
          intro hm
          exact hv s rfl ((strip_infix s).subset hm)
        · intro s' hs' _
          cases hs'
          exact strip_idem s
        · intro s' _ hn
          exact absurd hraw hn
      · rename_i hraw
        split at h
        · rename_i v' hv'
          cases Res.ok.inj h
          refine ⟨rfl, htok, lower_idem t, ?_, ?_, ?_, ?_⟩
          · intro ho
            simp only at ho
            subst ho
            unfold cleanString at hv'
            split at hv'
            · simp only at hv'
              split at hv'
              · have := Res.ok.inj hv'
                split at this <;> cases this
              · cases hv'
            · cases hv'
            · cases hv'
          · intro s' hs'
            simp only at hs'
            subst hs'
            intro hm
            exact hv s rfl (words_sub (cleanString_str hv').1 hm)
          · intro s' _ hn
            exact absurd hn hraw
          · intro s' hs' _
            simp only at hs'
            subst hs'
            obtain ⟨h1, h2, h3⟩ := cleanString_str hv'
            exact ⟨words_token (words_mem h1), h2, h3⟩
        · cases h
        · cases h
    · cases h
    · rename_i hno hns
      cases Res.ok.inj h
      have hns' : ∀ s, v ≠ .one (.str s) := fun s hs => by
        subst hs; exact absurd rfl (hno s)
      exact ⟨rfl, htok, lower_idem t, fun ho => hns ho, fun s hs => absurd hs (hns' s), fun s hs => absurd hs (hns' s),
        fun s hs => absurd hs (hns' s)⟩

/-- All entries are proper. -/
def AllKept (d : Entries) : Prop := ∀ e ∈ d, Kept e

theorem AllKept.set {d : Entries} (h : AllKept d) {i : Item} (hi : Kept (i.tag, i)) : AllKept (d.set i.tag i) := by
  intro e he
  induction d with
  | nil => simp [Dict.set] at he; rw [he]; exact hi
  | cons a t ih =>
    unfold Dict.set at he
    split at he
    · rename_i hk
      rcases List.mem_cons.1 he with rfl | he
      · rw [hk]; exact hi
      · exact h e (by simp [he])
    · rcases List.mem_cons.1 he with rfl | he
      · exact h _ (by simp)
      · exact ih (fun x hx => h x (by simp [hx])) he

theorem AllKept.del {d : Entries} (h : AllKept d) (t : Str) : AllKept (d.del t) := by
  intro e he
  exact h e (List.mem_of_mem_filter he)

theorem foldlM'_inv {α σ} {P : σ → Prop} {f : σ → α → Res σ} {l : List α} {s s' : σ}
    (hf : ∀ s a s', a ∈ l → P s → f s a = .ok s' → P s') (h0 : P s) (h : Res.foldlM' f s l = .ok s') : P s' := by
  induction l generalizing s with
  | nil => cases Res.ok.inj h; exact h0
  | cons a as ih =>
    unfold Res.foldlM' at h
    split at h
    · rename_i s1 h1
      exact ih (fun s a s' ha => hf s a s' (by simp [ha])) (hf s a s1 (by simp) h0 h1) h
    · cases h
    · cases h

theorem fromList_kept {F : FloatEnv} {lines : List Str} {d : Entries} (h : fromList F lines = .ok d) : AllKept d := by
  refine foldlM'_inv (P := AllKept) ?_ (fun e he => by cases he) h
  intro d1 line d2 _ hd1 h1
  unfold parseLine at h1
  split at h1
  · cases Res.ok.inj h1; exact hd1
  · refine foldlM'_inv (P := AllKept) ?_ hd1 h1
    intro d3 ntry d4 hn hd3 h3
    have hmark : '#' ∉ ntry := fun hm => split1_fst_not_mem '#' line ((splitOn_infix hn).subset hm)
    unfold parseEntry at h3
    split at h3
    · cases Res.ok.inj h3; exact hd3
    · split at h3
      · rename_i tag value hsp
        split at h3
        · rename_i item hi
          cases Res.ok.inj h3
          refine hd3.set (cleanEntry_kept hi ?_)
          intro s hs
          cases hs
          exact fun hm => hmark ((splitOn_infix (c := '=') (s := ntry) (by rw [hsp]; simp)).subset hm)
        · cases h3
        · cases h3
      · cases h3
      · cases h3

theorem fromDict_kept {F : FloatEnv} {items : List (Str × Value)} {d : Entries} (h : fromDict F items = .ok d) : AllKept d := by
  refine foldlM'_inv (P := AllKept) ?_ (fun e he => by cases he) h
  rintro d1 ⟨tag, value⟩ d2 hmem hd1 h1
  simp only at h1
  split at h1
  · rename_i item hi
    cases Res.ok.inj h1
    refine hd1.set ?_
    unfold dictItem at hi
    split at hi
    · rename_i s
      split at hi
      · rename_i w hw
        refine cleanEntry_kept hi ?_
        intro s' hs'
        cases hs'
        have : s ∈ splitOn '#' s := by
          have hj := join_splitOn '#' s
          rw [hw] at hj ⊢
          simp only [join] at hj
          simp [hj]
        exact splitOn_pieces this
      · rename_i v c hw
        refine cleanEntry_kept hi ?_
        intro s' hs'
        cases hs'
        exact splitOn_pieces (s := s) (by rw [hw]; simp)
      · cases hi
    · rename_i hns
      exact cleanEntry_kept hi (fun s hs => absurd hs (hns s))
  · cases h1
  · cases h1

theorem init_kept {F : FloatEnv} {allowed : List Str} {vt : Bool} {s : Sources} {d : Entries} (h : init F allowed vt s = .ok d) :
    AllKept d := by
  unfold init at h
  split at h
  · cases h
  split at h
  · cases h
  obtain ⟨d', h1, h⟩ := Res.bind_eq_ok.1 h
  obtain ⟨_, _, h⟩ := Res.bind_eq_ok.1 h
  cases Res.ok.inj h
  have hp : ∀ ls, parseSource F s ls = .ok d → AllKept d := by
    intro ls h1
    unfold parseSource at h1
    split at h1
    · exact fromDict_kept h1
    · exact fromList_kept h1
  unfold loadEntries at h1
  split at h1
  · obtain ⟨ls, _, h1⟩ := Res.bind_eq_ok.1 h1
    exact hp ls h1
  · exact hp _ h1

/-- The call does not store a text with the comment sign. -/
def NoMark : Op → Prop
  | .modify _ v _ => ∀ s, v = .one (.str s) → '#' ∉ s
  | .delete _ => True

theorem step_kept {F : FloatEnv} {d : Entries} {o : Op} (h : AllKept d) (ho : NoMark o) : AllKept (step F d o).1 := by
  cases o with
  | delete t => exact h.del t
  | modify t v c =>
    simp only [step, modify]
    cases hc : cleanEntry F t v c with
    | ok i => exact h.set (cleanEntry_kept hc ho)
    | exit => exact h
    | raise => exact h

theorem run_kept {F : FloatEnv} {d : Entries} {ops : List Op} (h : AllKept d) (ho : ∀ o ∈ ops, NoMark o) : AllKept (run F d ops) := by
  induction ops generalizing d with
  | nil => exact h
  | cons o ops ih => exact ih (step_kept h (ho o (by simp))) (fun x hx => ho x (by simp [hx]))

theorem dictItem_kept (F : FloatEnv) {e : Str × Item} (h : Kept e) : dictItem F e.1 e.2.value = .ok ⟨e.1, e.2.value, none⟩ := by
  obtain ⟨k, tg, v, c⟩ := e
  obtain ⟨h1, h2, h3, h4, h5, h6, h7⟩ := h
  simp only at *
  have hw : words k = [k] := words_token h2
  match v, h4, h5, h6, h7 with
  | .one (.str s), _, h5, h6, h7 =>
    have : splitOn '#' s = [s] := splitOn_free (h5 s rfl)
    simp only [dictItem, this, cleanEntry, hw, h3]
    by_cases hr : k ∈ rawTags
    · rw [if_pos hr, h6 s rfl hr]
    · rw [if_neg hr]
      obtain ⟨a, b, c⟩ := h7 s rfl hr
      have : cleanString F s = .ok (.one (.str s)) := by
        simp [cleanString, a, Res.mapM', cleanToken, b, c, allSame]
      rw [this]; rfl
  | .one (.int i), _, _, _, _ => simp [dictItem, cleanEntry, hw, h3]
  | .one (.float i), _, _, _, _ => simp [dictItem, cleanEntry, hw, h3]
  | .one (.bool i), _, _, _, _ => simp [dictItem, cleanEntry, hw, h3]
  | .list l, _, _, _, _ => simp [dictItem, cleanEntry, hw, h3]
  | .other, h4, _, _, _ => exact absurd rfl h4

theorem set_new {κ ν} [DecidableEq κ] (d : Dict κ ν) (k : κ) (v : ν) (h : k ∉ d.keys) : d.set k v = d ++ [(k, v)] := by
  induction d with
  | nil => rfl
  | cons a t ih =>
    simp only [Dict.keys, List.map_cons, List.mem_cons, not_or] at h
    simp only [Dict.set]
    rw [if_neg (fun he => h.1 he.symm)]
    rw [ih h.2]; rfl

theorem getDict_eq_map (d : Entries) (h : d.keys.Nodup) : getDict d = d.map fun e => (e.1, e.2.value) := by
  have : ∀ (acc : Dict Str Value), (∀ k ∈ d.keys, k ∉ acc.keys) →
      d.foldl (fun acc e => Dict.set acc e.1 e.2.value) acc = acc ++ d.map fun e => (e.1, e.2.value) := by
    induction d with
    | nil => intro acc _; simp
    | cons a t ih =>
      intro acc hacc
      simp only [Dict.keys, List.map_cons, List.nodup_cons] at h
      rw [List.foldl_cons, set_new _ _ _ (hacc a.1 (by simp [Dict.keys])), ih h.2]
      · simp
      · intro k hk hm
        simp only [Dict.keys, List.map_append, List.map_cons, List.map_nil, List.mem_append, List.mem_singleton] at hm
        rcases hm with hm | rfl
        · exact hacc k (by simp only [Dict.keys, List.map_cons, List.mem_cons]; exact Or.inr hk) hm
        · exact h.1 hk
  unfold getDict
  rw [this [] (by simp [Dict.keys])]; rfl

theorem fromDict_kept_eq (F : FloatEnv) (d : Entries) (h : d.keys.Nodup) (hk : AllKept d) :
    fromDict F (d.map fun e => (e.1, e.2.value)) = .ok (d.map fun e => (e.1, ⟨e.1, e.2.value, none⟩)) := by
  have : ∀ (acc : Entries), (∀ k ∈ d.keys, k ∉ acc.keys) →
      Res.foldlM' (fun d (p : Str × Value) => match dictItem F p.1 p.2 with
        | .ok item => .ok (d.set item.tag item)
        | .exit c => .exit c
        | .raise e => .raise e) acc (d.map fun e => (e.1, e.2.value)) =
      .ok (acc ++ d.map fun e => (e.1, ⟨e.1, e.2.value, none⟩)) := by
    induction d with
    | nil => intro acc _; simp [Res.foldlM']
    | cons a t ih =>
      intro acc hacc
      simp only [Dict.keys, List.map_cons, List.nodup_cons] at h
      rw [List.map_cons]
      unfold Res.foldlM'
      simp only [dictItem_kept F (hk a (by simp))]
      rw [set_new _ _ _ (hacc a.1 (by simp [Dict.keys])), ih h.2 (fun x hx => hk x (by simp [hx]))]
      · simp
      · intro k hk' hm
        simp only [Dict.keys, List.map_append, List.map_cons, List.map_nil, List.mem_append, List.mem_singleton] at hm
        rcases hm with hm | rfl
        · exact hacc k (by simp only [Dict.keys, List.map_cons, List.mem_cons]; exact Or.inr hk') hm
        · exact h.1 hk'
  exact this [] (by simp [Dict.keys])

/-- C82, partial: take any object the constructor makes, from whatever source, and any history of `modify` and `delete` calls that
store no text with a `#`.  A second object made from its dictionary has the same tags in the same order with the same values
(also with validation of the tags, if the first one passes it).  Missing: texts with `#` given to `modify`, for which the claim
is false (`C82_violation_mark`). -/
theorem C82_round_trip_partial (F : FloatEnv) (allowed : List Str) (vt : Bool) (s : Sources) (d : Entries) (ops : List Op)
    (h : init F allowed vt s = .ok d) (ho : ∀ o ∈ ops, NoMark o) (vt' : Bool)
    (hv : vt' = true → ∀ t ∈ (run F d ops).keys, t ∈ allowed) :
    ∃ d', init F allowed vt' { dict := some (getDict (run F d ops)) } = .ok d' ∧ d'.keys = (run F d ops).keys ∧
      ∀ t, get d' t = get (run F d ops) t := by
  have hn := run_keys_nodup F d ops (C07_constructed_distinct F allowed vt s d h)
  have hk := run_kept (F := F) (init_kept h) ho
  generalize run F d ops = e at hv hn hk
  refine ⟨e.map fun e => (e.1, ⟨e.1, e.2.value, none⟩), ?_, by simp [Dict.keys, Function.comp_def], ?_⟩
  · have hkeys : Dict.keys (e.map fun e => (e.1, (⟨e.1, e.2.value, none⟩ : Item))) = e.keys := by simp [Dict.keys, Function.comp_def]
    simp only [init, tooMany, noneGiven, Option.isSome_none, Option.isSome_some, Bool.false_and, Bool.and_false, Bool.or_false,
      Bool.not_true, Bool.not_false, loadEntries, parseSource, getDict_eq_map e hn, fromDict_kept_eq F e hn hk]
    have hva : validate vt' allowed (e.map fun e => (e.1, (⟨e.1, e.2.value, none⟩ : Item))) = .ok () := by
      unfold validate
      cases vt' with
      | false => rfl
      | true =>
        rw [if_neg (by simp), if_pos]
        rw [hkeys]
        simpa using hv rfl
    simp [hva]
  · intro t
    unfold get
    clear hn hk hv
    induction e with
    | nil => rfl
    | cons a r ih =>
      by_cases hk : a.1 = t
      · simp [Dict.get?, hk]
      · simp only [List.map_cons, Dict.get?, hk, if_false]
        exact ih

/-- C82 is false for a text with `#` given to `modify`: its end is lost in the second object. -/
theorem C82_violation_mark : ∃ d d', modify exactEnv [] c!"SYSTEM" (.one (.str c!"bulk #2")) none = .ok d ∧
    get d c!"system" = some (.one (.str c!"bulk #2")) ∧ init exactEnv incarTags true { dict := some (getDict d) } = .ok d' ∧
    get d' c!"system" = some (.one (.str c!"bulk")) :=
  ⟨[(c!"system", ⟨c!"system", .one (.str c!"bulk #2"), none⟩)], [(c!"system", ⟨c!"system", .one (.str c!"bulk"), none⟩)],
    by decide +kernel, by decide +kernel, by decide +kernel, by decide +kernel⟩

/-- The object of the example. -/
def exampleEntries : Entries :=
  [(c!"system", ⟨c!"system", .one (.str c!"two words"), none⟩), (c!"encut", ⟨c!"encut", .list [.int 300, .int 400], none⟩),
    (c!"algo", ⟨c!"algo", .one (.str c!"Fast"), none⟩), (c!"lreal", ⟨c!"lreal", .one (.bool false), none⟩)]

/-- Non-vacuity: a parsed text with a comment, two edits, and the dictionary round trip. -/
example : init exactEnv incarTags true
      { string := some c!"SYSTEM = two words # remark\nENCUT = 300 400\nALGO = Fast\nLREAL = .FALSE." } = .ok exampleEntries ∧
    (∀ o ∈ [Op.modify c!"NSW" (.one (.str c!" 5 ")) none, Op.delete c!"algo"], NoMark o) ∧
    getDict (run exactEnv exampleEntries [Op.modify c!"NSW" (.one (.str c!" 5 ")) none, Op.delete c!"algo"]) =
      [(c!"system", .one (.str c!"two words")), (c!"encut", .list [.int 300, .int 400]), (c!"lreal", .one (.bool false)),
      (c!"nsw", .one (.int 5))] :=
  ⟨by decide +kernel, by
    intro o ho
    simp only [List.mem_cons, List.not_mem_nil, or_false] at ho
    rcases ho with rfl | rfl
    · intro s hs
      cases hs; decide
    · trivial, by decide +kernel⟩

end Verif.Incar
