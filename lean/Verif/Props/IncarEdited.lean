import Verif.Props.IncarWrite
import Verif.Props.IncarMap
import Verif.Props.CaseIncar
/-! # Writing an INCAR whose tags were edited (C139) -/
set_option autoImplicit false
namespace Verif.Incar
open Verif Verif.Utils Verif.IncarSpec

/-- A tag a user may pass to `modify`: one word, in any case, without `=`, `;`, `#`. -/
def WordTag (t : Str) : Prop := Token t ∧ '=' ∉ t ∧ ';' ∉ t ∧ '#' ∉ t

/-- An ordinary call: `delete` of anything; `modify` of a word with
* a text without `=`, `;`, `#`: verbatim tags any such text of one line, other tags a text that holds no list of truth values and no
  infinity or nan (a text that mixes kinds, or that no number can be read from, is allowed: the call fails and changes nothing);
* for a tag that is not kept verbatim, a value that some text stands for;
* a value of no supported type (the call exits 105 and changes nothing);
and a comment of one line, if any. -/
def Ordinary (F : FloatEnv) : Op → Prop
  | .delete _ => True
  | .modify t v c => WordTag t ∧ (∀ x, c = some x → '\n' ∉ strip x) ∧
    match v with
    | .one (.str s) => ('=' ∉ s ∧ ';' ∉ s ∧ '#' ∉ s) ∧
        (if lower t ∈ rawTags then '\n' ∉ strip s else ∀ v', cleanString F s = .ok v' → Lossless v')
    | .other => True
    | v => lower t ∉ rawTags ∧ StorableValue F v

/-- An object all of whose entries survive writing and reading. -/
def Sound (F : FloatEnv) (d : Entries) : Prop := d.keys.Nodup ∧ ∀ e ∈ d, e.1 = e.2.tag ∧ StorableItem F e.2

theorem lowerC_idem (c : Char) : lowerC (lowerC c) = lowerC c := by
  have h1 := lowerC_toNat c
  have h2 := lowerC_toNat (lowerC c)
  apply char_ext_toNat
  rw [h2, h1]
  by_cases h : (decide (65 ≤ c.toNat) && decide (c.toNat ≤ 90)) = true
  · have h' : 65 ≤ c.toNat ∧ c.toNat ≤ 90 := by simpa using h
    simp only [h, if_true]
    rw [if_neg (by simp; omega)]
  · simp only [h, if_false]
    rw [if_neg (by simpa using h)]

theorem lower_idem (s : Str) : lower (lower s) = lower s := by
  unfold lower; rw [List.map_map]; congr 1; funext c; exact lowerC_idem c

theorem mem_strip {c : Char} {s : Str} (h : c ∈ strip s) : c ∈ s := by
  unfold strip at h
  exact (List.dropWhile_suffix _).subset (by
    unfold rstrip at h
    rw [List.mem_reverse] at h
    have := (List.dropWhile_suffix _).subset h
    simpa [lstrip] using this)

theorem goodTag_lower {t : Str} (h : WordTag t) : GoodTag (lower t) :=
  ⟨h.1.lower, lower_idem t, mem_lower_of_nonletter (by decide) h.2.1, mem_lower_of_nonletter (by decide) h.2.2.1,
    mem_lower_of_nonletter (by decide) h.2.2.2⟩

theorem ordinary_item (F : FloatEnv) (t : Str) (v : Value) (c : Option Str) (i : Item) (ho : Ordinary F (.modify t v c))
    (h : cleanEntry F t v c = .ok i) : i.tag = lower t ∧ StorableItem F i := by
  obtain ⟨ht, hc, hv⟩ := ho
  have hcm : ∀ x, c.map strip = some x → Stripped x ∧ '\n' ∉ x := by
    intro x hx
    cases c with
    | none => cases hx
    | some y => cases hx; exact ⟨strip_stripped y, hc y rfl⟩
  unfold cleanEntry at h
  rw [words_token ht.1] at h
  dsimp only at h
  split at h
  · rename_i s
    obtain ⟨hs, hr⟩ := hv
    split at h
    · rename_i hraw
      cases h
      rw [if_pos hraw] at hr
      refine ⟨rfl, goodTag_lower ht, ?_⟩
      rw [if_pos hraw]
      exact ⟨⟨_, rfl, strip_stripped s, hr, fun hm => hs.1 (mem_strip hm), fun hm => hs.2.1 (mem_strip hm),
        fun hm => hs.2.2 (mem_strip hm)⟩, rfl⟩
    · rename_i hraw
      rw [if_neg hraw] at hr
      split at h
      · rename_i v' hv'
        cases h
        refine ⟨rfl, goodTag_lower ht, ?_⟩
        rw [if_neg hraw]
        exact ⟨storable_of_cleanString F hv' (hr _ hv') hs, hcm⟩
      · cases h
      · cases h
  · cases h
  · rename_i h1 h2
    cases h
    have hv' : lower t ∉ rawTags ∧ StorableValue F v := by
      cases v with
      | other => exact absurd rfl h2
      | list l => exact hv
      | one x => cases x with
        | str s => exact absurd rfl (h1 s)
        | int => exact hv
        | float => exact hv
        | bool => exact hv
    refine ⟨rfl, goodTag_lower ht, ?_⟩
    rw [if_neg hv'.1]
    exact ⟨hv'.2, hcm⟩

theorem step_sound (F : FloatEnv) (d : Entries) (o : Op) (hd : Sound F d) (ho : Ordinary F o) : Sound F (step F d o).1 := by
  refine ⟨step_keys_nodup F d o hd.1, ?_⟩
  have hn := step_keys_nodup F d o hd.1
  intro e he
  cases o with
  | delete t =>
    simp only [step, delete] at he hn
    have hg := Dict.get?_eq_some_of_mem _ hn (k := e.1) (v := e.2) he
    rw [Dict.get?_del] at hg
    split at hg
    · cases hg
    · exact hd.2 e (Dict.mem_of_get? _ hg)
  | modify t v c =>
    simp only [step, modify] at he hn
    cases hc : cleanEntry F t v c with
    | ok i =>
      rw [hc] at he hn
      have hg := Dict.get?_eq_some_of_mem _ hn (k := e.1) (v := e.2) he
      rw [Dict.get?_set] at hg
      split at hg
      · rename_i h
        have h2 : i = e.2 := by simpa using hg
        exact ⟨by rw [← h2]; exact h.symm, by rw [← h2]; exact (ordinary_item F t v c i ho hc).2⟩
      · exact hd.2 e (Dict.mem_of_get? _ hg)
    | exit => rw [hc] at he; exact hd.2 e he
    | raise => rw [hc] at he; exact hd.2 e he

theorem run_sound (F : FloatEnv) (d : Entries) (ops : List Op) (hd : Sound F d) (ho : ∀ o ∈ ops, Ordinary F o) :
    Sound F (run F d ops) := by
  induction ops generalizing d with
  | nil => exact hd
  | cons o ops ih => exact ih _ (step_sound F d o hd (ho o (by simp))) (fun x hx => ho x (by simp [hx]))

theorem parsed_sound (F : FloatEnv) (t : Str) (d : Entries) (h : fromList F (readlines t) = .ok d)
    (hl : ∀ e ∈ d, Lossless e.2.value) : Sound F d := by
  have hk : d.keys.Nodup := by
    rw [fromList_eq, Res.bind_eq_ok] at h
    obtain ⟨is, _, h2⟩ := h
    cases h2
    exact keys_foldl_nodup [] is (by simp [Dict.keys])
  refine ⟨hk, fun e he => ?_⟩
  have hm : e.1 ∈ d.keys := List.mem_map.2 ⟨e, he, rfl⟩
  obtain ⟨a, ha, i, hai, hit, hg⟩ := (C11_nothing_dropped F _ d h).2 e.1 hm
  have := Dict.get?_eq_some_of_mem d hk (k := e.1) (v := e.2) he
  rw [hg] at this
  cases this
  exact ⟨hit.symm, storable_of_parsed F t a e.2 ha hai (hl e he)⟩

/-- The two ways to give the content of a file to `Incar`: by path and by open file. -/
inductive GivenAs (t : Str) : Sources → Prop
  | path : GivenAs t { path := some (some t) }
  | handler : GivenAs t { handler := some t }

theorem init_given (F : FloatEnv) (allowed : List Str) (vt : Bool) (t : Str) (s : Sources) (h : GivenAs t s) :
    init F allowed vt s = fromList F (readlines t) >>= fun d => validate vt allowed d >>= fun _ => .ok d := by
  cases h <;> simp [init, tooMany, noneGiven, loadEntries, fileLines, parseSource]

theorem validate_ok (vt : Bool) (allowed : List Str) (d : Entries) (h : vt = true → ∀ t ∈ d.keys, t ∈ allowed) :
    validate vt allowed d = .ok () := by
  unfold validate
  cases vt with
  | false => rfl
  | true =>
    have : d.keys.all (fun k => decide (k ∈ allowed)) = true := by simpa using h rfl
    simp [this]

theorem key_get (d : Entries) (t : Str) (h : t ∈ d.keys) (hk : d.keys.Nodup) : ∃ v, get d t = some v := by
  obtain ⟨e, he, rfl⟩ := List.mem_map.1 h
  exact ⟨_, by unfold get; rw [Dict.get?_eq_some_of_mem d hk (k := e.1) (v := e.2) he]; rfl⟩

theorem fromList_nodup (F : FloatEnv) (ls : List Str) (d : Entries) (h : fromList F ls = .ok d) : d.keys.Nodup := by
  rw [fromList_eq, Res.bind_eq_ok] at h
  obtain ⟨is, _, h2⟩ := h
  cases h2
  exact keys_foldl_nodup [] is (by simp [Dict.keys])

/-- C139. Take an object whose entries can be stored and any history of ordinary `modify` and `delete` calls, failing ones
included. Written with or without comments and read back as a file or an open file (with validation, if the tags left are all
known), it answers every `get` as the map does that the history describes; with comments written, the comments are the object's. -/
theorem C139_edited (F : FloatEnv) (b : Bool) (d : Entries) (hd : Sound F d) (ops : List Op) (ho : ∀ o ∈ ops, Ordinary F o)
    (allowed : List Str) (vt : Bool)
    (hvt : vt = true → ∀ t v, (ops.foldl (specStep F) (get d)) t = some v → t ∈ allowed)
    (s : Sources) (hs : GivenAs (writeText b (run F d ops)) s) :
    ∃ d', init F allowed vt s = .ok d' ∧ (∀ t, get d' t = (ops.foldl (specStep F) (get d)) t) ∧
      (b = true → ∀ t, (d'.get? t).map Item.comment = ((run F d ops).get? t).map Item.comment) := by
  have hr := run_sound F d ops hd ho
  obtain ⟨d', h1, h2, h3⟩ := C02_round_trip F b (run F d ops) hr.1 hr.2
  have h4 : ∀ t, get d' t = (ops.foldl (specStep F) (get d)) t := fun t => by
    rw [h2, (C07_map_semantics F d ops hd.1 t).1]
  refine ⟨d', ?_, h4, h3⟩
  rw [init_given F allowed vt _ s hs, h1, Res.ok_bind, validate_ok, Res.ok_bind]
  intro hv t ht
  obtain ⟨v, hg⟩ := key_get d' t ht (fromList_nodup F _ _ h1)
  exact hvt hv t v (by rw [← h4]; exact hg)

/-- C139, from a file: the object the history starts from is parsed from any text without lists of truth values, infinities and
nan. -/
theorem C139_parsed (F : FloatEnv) (b : Bool) (text : Str) (s₀ : Sources) (h₀ : GivenAs text s₀) (d : Entries)
    (hp : init F [] false s₀ = .ok d) (hl : ∀ t v, get d t = some v → Lossless v)
    (ops : List Op) (ho : ∀ o ∈ ops, Ordinary F o) (s : Sources) (hs : GivenAs (writeText b (run F d ops)) s) :
    ∃ d', init F [] false s = .ok d' ∧ (∀ t, get d' t = (ops.foldl (specStep F) (get d)) t) ∧
      (b = true → ∀ t, (d'.get? t).map Item.comment = ((run F d ops).get? t).map Item.comment) := by
  rw [init_given F [] false text s₀ h₀, Res.bind_eq_ok] at hp
  obtain ⟨d1, h1, h2⟩ := hp
  have : d1 = d := by simpa [validate] using h2
  subst this
  refine C139_edited F b d1 (parsed_sound F text d1 h1 fun e he => hl e.1 _ ?_) ops ho [] false (by simp) s hs
  unfold get
  rw [Dict.get?_eq_some_of_mem d1 (fromList_nodup F _ _ h1) (k := e.1) (v := e.2) he]; rfl

theorem noBreak_join {ws : List Str} (h : ∀ w ∈ ws, Free isLineBreak w) : Free isLineBreak (join [' '] ws) := by
  induction ws with
  | nil => intro c hc; simp [join] at hc
  | cons w ws ih =>
    cases ws with
    | nil => simpa [join] using h
    | cons v vs =>
      rw [join_cons_ne (by simp)]
      intro c hc
      simp only [List.mem_append, List.mem_singleton] at hc
      rcases hc with (hc | rfl) | hc
      · exact h w (by simp) c hc
      · decide
      · exact ih (fun x hx => h x (by simp [hx])) c hc

theorem token_noBreak {s : Str} (h : Token s) : Free isLineBreak s := by
  intro c hc
  cases hb : isLineBreak c with
  | false => rfl
  | true => exact absurd (isLineBreak_isSpace hb) (by rw [h.2 c hc]; simp)

theorem storable_noBreak (F : FloatEnv) {v : Value} (h : StorableValue F v) : Free isLineBreak (valueStr v) := by
  have hlist : ∀ (k : Kind) (xs : List Scalar), (∀ x ∈ xs, ElemOK F k x) → Free isLineBreak (valueStr (.list xs)) := by
    intro k xs hx
    apply noBreak_join
    intro w hw
    obtain ⟨x, hxm, rfl⟩ := List.mem_map.1 hw
    exact token_noBreak (hx x hxm).1
  cases h with
  | int i => exact token_noBreak (elemOK_int F i).1
  | float h => exact token_noBreak (elemOK_float F h).1
  | str h => exact token_noBreak (elemOK_str F h).1
  | bool b => cases b <;> (unfold Free; decide)
  | ints => exact hlist .int _ (by intro x hx; obtain ⟨i, _, rfl⟩ := List.mem_map.1 hx; exact elemOK_int F i)
  | floats _ h => exact hlist .float _ (by intro x hx; obtain ⟨i, hi, rfl⟩ := List.mem_map.1 hx; exact elemOK_float F (h i hi))
  | strs _ h => exact hlist .string _ (by intro x hx; obtain ⟨i, hi, rfl⟩ := List.mem_map.1 hx; exact elemOK_str F (h i hi))

/-- C139, `get_string`: the text also given back as a string reads the same, unless a verbatim value has a line break other than
newline inside (`Incar(incar_string=x.get_string())`). -/
theorem C139_string (F : FloatEnv) (d : Entries) (hd : Sound F d) (ops : List Op) (ho : ∀ o ∈ ops, Ordinary F o)
    (hb : ∀ t ∈ rawTags, ∀ v, (ops.foldl (specStep F) (get d)) t = some (.one (.str v)) → Free isLineBreak v) :
    ∃ d', init F [] false { string := some (getString (run F d ops)) } = .ok d' ∧
      ∀ t, get d' t = (ops.foldl (specStep F) (get d)) t := by
  obtain ⟨d', h1, h2, -⟩ := C139_edited F false d hd ops ho [] false (by simp) _ .path
  refine ⟨d', ?_, h2⟩
  have hr := run_sound F d ops hd ho
  have hget : ∀ t, get (run F d ops) t = (ops.foldl (specStep F) (get d)) t := fun t => (C07_map_semantics F d ops hd.1 t).1
  generalize run F d ops = x at *
  have hchars : ∀ c ∈ writeText false x, (isLineBreak c = true → c = '\n') ∧ c ≠ ';' := by
    rw [writeText_eq]
    intro c hc
    obtain ⟨e, he, hce⟩ := List.mem_flatMap.1 hc
    have he' := (sortedEntries_perm x hr.1).mem_iff.1 he
    obtain ⟨htag, hgood, hval⟩ := hr.2 e he'
    have hw : writeLine false e.1 e.2 = upper e.1 ++ c!" = " ++ valueStr e.2.value ++ ['\n'] := by
      simp only [writeLine]; cases e.2.comment <;> simp
    rw [hw] at hce
    have hv : Free isLineBreak (valueStr e.2.value) ∧ ';' ∉ valueStr e.2.value := by
      split at hval
      · rename_i hraw
        obtain ⟨⟨v, hv, _, _, _, hsc, _⟩, _⟩ := hval
        rw [hv]
        refine ⟨?_, hsc⟩
        refine hb e.2.tag hraw v ?_
        rw [← hget]
        unfold get
        rw [Dict.get?_eq_some_of_mem x hr.1 (k := e.2.tag) (v := e.2) (by rw [← htag]; exact he')]
        simp [hv]
      · exact ⟨storable_noBreak F hval.1, (storable_string F hval.1).1.2.2.1⟩
    have hu : Free isLineBreak (upper e.1) ∧ ';' ∉ upper e.1 := by
      rw [htag]
      exact ⟨token_noBreak hgood.1.upper, mem_upper_of_nonletter (by decide) hgood.2.2.2.1⟩
    have hfix : ∀ s : Str, Free isLineBreak s → ';' ∉ s → c ∈ s → (isLineBreak c = true → c = '\n') ∧ c ≠ ';' := by
      intro s h3 h4 h5
      refine ⟨fun h6 => ?_, ?_⟩
      · rw [h3 c h5] at h6; cases h6
      · rintro rfl; exact h4 h5
    simp only [List.mem_append] at hce
    rcases hce with ((hce | hce) | hce) | hce
    · exact hfix _ hu.1 hu.2 hce
    · exact hfix c!" = " (by unfold Free; decide) (by decide) hce
    · exact hfix _ hv.1 hv.2 hce
    · have : c = '\n' := by simpa using hce
      subst this; exact ⟨fun _ => rfl, by decide⟩
  have hag := C10_string_file_agree_partial F (writeText false x) (fun c hc => (hchars c hc).1) (by
    intro l hl
    left
    intro hlast
    have hm : ';' ∈ l := List.mem_of_getLast? hlast
    exact (hchars ';' (((splitlines_infix _).2 l hl).subset hm)).2 rfl)
  rw [init_given F [] false _ _ .path] at h1
  have hi : init F [] false { string := some (getString x) } = fromList F (splitlines (getString x)) >>= fun d =>
      validate false [] d >>= fun _ => .ok d := by
    simp [init, tooMany, noneGiven, loadEntries, parseSource]
  rw [hi]
  unfold getString
  rw [← hag]
  exact h1

/-- Non-vacuity: a file is read, a tag is set by a text, a list by a text that mixes kinds (refused), a tag deleted, SYSTEM set. -/
example : ∃ d, init exactEnv [] false { path := some (some c!"ENCUT = 300 # cut\nISMEAR = 0\n") } = .ok d ∧
    (∀ e ∈ d, Lossless e.2.value) ∧ Sound exactEnv d := by
  refine ⟨_, rfl, ?_, parsed_sound exactEnv c!"ENCUT = 300 # cut\nISMEAR = 0\n" _ rfl ?_⟩ <;>
  · intro e he
    apply lossless_of_B
    revert e
    decide +kernel

/-- The calls of the example. -/
def sampleOps : List Op := [.modify c!"Sigma" (.one (.str c!" 1 x")) none, .modify c!"LREAL" (.one (.bool true)) (some c!" fast "),
  .modify c!"System" (.one (.str c!" two words ")) none, .delete c!"ismear", .modify c!"NSW" .other none]

example : ∀ o ∈ sampleOps, Ordinary exactEnv o := by
  have h : ∀ t : Str, (Token t ∧ '=' ∉ t ∧ ';' ∉ t ∧ '#' ∉ t) → WordTag t := fun _ h => h
  intro o ho
  simp only [sampleOps, List.mem_cons, List.not_mem_nil, or_false] at ho
  rcases ho with rfl | rfl | rfl | rfl | rfl
  · refine ⟨h _ (by decide), by simp, by decide, ?_⟩
    rw [if_neg (by decide)]
    intro v' hv'
    have : cleanString exactEnv c!" 1 x" = .exit 104 := by decide +kernel
    rw [this] at hv'; cases hv'
  · exact ⟨h _ (by decide), (by intro x hx; cases hx; decide), by decide, .bool true⟩
  · refine ⟨h _ (by decide), by simp, by decide, ?_⟩
    rw [if_pos (by decide)]
    decide
  · trivial
  · exact ⟨h _ (by decide), by simp, trivial⟩

example : getString (run exactEnv [(c!"encut", ⟨c!"encut", .one (.int 300), some c!"cut"⟩), (c!"ismear", ⟨c!"ismear", .one (.int 0), none⟩)] sampleOps) =
    c!"ENCUT = 300\nLREAL = .TRUE.\nSYSTEM = two words\n" := by decide +kernel

end Verif.Incar
