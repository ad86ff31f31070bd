import Verif.Model.VaspStream
import Verif.Lemmas.Dict
/-! # C107: `VaspStream` objects stay valid -/
set_option autoImplicit false
namespace Verif.Stream
open Verif
variable {Rx : Type}

/-- What each attribute of a stream may hold. -/
inductive Allowed : Attr → Obj Rx → Prop
  | shortname (s : Str) : Allowed .shortname (.str s)
  | kind (s : Str) : (upper s = c!"ERROR" ∨ upper s = c!"WARNING") → Allowed .kind (.str s)
  | regex (r : Rx) : Allowed .regex (.rx r)
  | message (s : Str) : Allowed .message (.str s)
  | noSuggestion : Allowed .suggestion .none
  | suggestion (s : Str) : Allowed .suggestion (.str s)
  | stdout : Allowed .location (.str c!"STDOUT")
  | stderr : Allowed .location (.str c!"STDERR")
  | recover (b : Bool) : Allowed .recover (.bool b)
  | inverse (b : Bool) : Allowed .inverse (.bool b)

/-- Every attribute has a value it may hold; for the pattern this is asked only if `strict`. -/
def ValidStream (strict : Bool) (o : Instance Rx) : Prop :=
  ∀ a : Attr, ∃ v : Obj Rx, o.get? a = some v ∧ (a = .regex → strict = true → Allowed a v) ∧ (a ≠ .regex → Allowed a v)

/-- May this object be given for the attribute? As what it may hold, or for the pattern a string that compiles. -/
def Acceptable (E : Engine Rx) (a : Attr) (v : Obj Rx) : Prop :=
  Allowed a v ∨ (a = .regex ∧ ∃ s r, v = .str s ∧ E.compile s = some r)

/-- The history of an object: assignments, the exceptions caught. -/
def assignments (E : Engine Rx) (o : Instance Rx) (l : List (Attr × Obj Rx)) : Instance Rx := l.foldl (fun o p => (assignAttr E o p.1 p.2).1) o

theorem stored_allowed {E : Engine Rx} {a : Attr} {v w : Obj Rx} (h : stored E a v = .ok w) (ha : a ≠ .regex) : w = v ∧ Allowed a w := by
  cases a <;> cases v <;> simp only [stored] at h <;> try cases h
  · exact ⟨rfl, .shortname _⟩
  · split at h
    · rename_i hk
      cases h
      exact ⟨rfl, .kind _ (by simpa [allowedKinds] using hk)⟩
    · cases h
  · exact absurd rfl ha
  · exact absurd rfl ha
  · exact absurd rfl ha
  · exact absurd rfl ha
  · exact absurd rfl ha
  · exact ⟨rfl, .message _⟩
  · exact ⟨rfl, .suggestion _⟩
  · exact ⟨rfl, .noSuggestion⟩
  · split at h
    · rename_i hk
      cases h
      simp only [allowedLocations, List.mem_cons, List.not_mem_nil, or_false] at hk
      rcases hk with rfl | rfl
      · exact ⟨rfl, .stdout⟩
      · exact ⟨rfl, .stderr⟩
    · cases h
  · exact ⟨rfl, .recover _⟩
  · exact ⟨rfl, .inverse _⟩

theorem stored_of_allowed {E : Engine Rx} {a : Attr} {v : Obj Rx} (h : Allowed a v) : stored E a v = .ok v := by
  cases h with
  | shortname => rfl
  | kind s hs => simp only [stored]; rw [if_pos (by simpa [allowedKinds] using hs)]
  | regex => rfl
  | message => rfl
  | noSuggestion => rfl
  | suggestion => rfl
  | stdout => simp only [stored]; rw [if_pos (by decide)]
  | stderr => simp only [stored]; rw [if_pos (by decide)]
  | recover => rfl
  | inverse => rfl

theorem stored_regex {E : Engine Rx} {v w : Obj Rx} (h : stored E .regex v = .ok w) (hv : Acceptable E .regex v) : Allowed .regex w := by
  rcases hv with hv | ⟨-, s, r, rfl, hs⟩
  · rw [stored_of_allowed hv] at h
    cases h; exact hv
  · simp only [stored, hs] at h
    cases h; exact .regex r

theorem stored_cases (E : Engine Rx) (a : Attr) (v : Obj Rx) : (∃ w, stored E a v = .ok w) ∨ (stored E a v = .raise .valueError ∧ a ≠ .regex) ∨
    (stored E a v = .raise .reError ∧ a = .regex ∧ ∃ s, v = .str s ∧ E.compile s = none) := by
  cases a <;> cases v <;> first
    | exact .inl ⟨_, rfl⟩
    | exact .inr (.inl ⟨rfl, by decide⟩)
    | skip
  · rename_i s
    by_cases hs : upper s ∈ allowedKinds
    · exact .inl ⟨_, by rw [stored, if_pos hs]⟩
    · exact .inr (.inl ⟨by rw [stored, if_neg hs], by decide⟩)
  · rename_i s
    simp only [stored]
    cases hs : E.compile s with
    | some r => exact .inl ⟨_, rfl⟩
    | none => exact .inr (.inr ⟨rfl, trivial, s, rfl, hs⟩)
  · rename_i s
    by_cases hs : s ∈ allowedLocations
    · exact .inl ⟨_, by rw [stored, if_pos hs]⟩
    · exact .inr (.inl ⟨by rw [stored, if_neg hs], by decide⟩)

theorem assign_get (E : Engine Rx) (o : Instance Rx) (a b : Attr) (v : Obj Rx) (h : b ≠ a) : (assignAttr E o a v).1.get? b = o.get? b := by
  unfold assignAttr
  cases stored E a v with
  | ok w => simp only [Dict.get?_set, if_neg (Ne.symm h)]
  | exit => rfl
  | raise => rfl

/-- C107: an assignment stores the value (the pattern compiled) if the attribute may hold it, and else raises `ValueError` (for a pattern that does not
compile, the exception of the regular expression library) and changes nothing; no other attribute ever changes. -/
theorem C107_assign (E : Engine Rx) (o : Instance Rx) (a : Attr) (v : Obj Rx) :
    (Acceptable E a v → ∃ w, assignAttr E o a v = (o.set a w, .ok ()) ∧ Allowed a w ∧ (a ≠ .regex → w = v)) ∧
    (¬ Acceptable E a v → a ≠ .regex → assignAttr E o a v = (o, .raise .valueError)) ∧
    (∀ s, a = .regex → v = .str s → E.compile s = none → assignAttr E o a v = (o, .raise .reError)) ∧
    (∀ b, b ≠ a → (assignAttr E o a v).1.get? b = o.get? b) ∧
    ((assignAttr E o a v).2 ≠ .ok () → (assignAttr E o a v).1 = o) := by
  refine ⟨?_, ?_, ?_, fun b hb => assign_get E o a b v hb, ?_⟩
  · intro h
    rcases h with h | ⟨rfl, s, r, rfl, hs⟩
    · exact ⟨v, by unfold assignAttr; rw [stored_of_allowed h], h, fun _ => rfl⟩
    · exact ⟨.rx r, by unfold assignAttr; simp only [stored, hs], .regex r, fun h => absurd rfl h⟩
  · intro h ha
    unfold assignAttr
    rcases stored_cases E a v with ⟨w, hw⟩ | ⟨hw, -⟩ | ⟨-, rfl, -⟩
    · obtain ⟨rfl, hal⟩ := stored_allowed hw ha
      exact absurd (.inl hal) h
    · rw [hw]
    · exact absurd rfl ha
  · rintro s rfl rfl hs
    unfold assignAttr
    simp only [stored, hs]
  · unfold assignAttr
    cases stored E a v with
    | ok w => intro h; exact absurd rfl h
    | exit => intro _; rfl
    | raise => intro _; rfl

theorem ValidStream.assign {E : Engine Rx} {strict : Bool} {o : Instance Rx} (h : ValidStream strict o) (a : Attr) (v : Obj Rx)
    (hs : strict = true → a = .regex → (∃ s, v = .str s) ∨ ∃ r, v = .rx r) : ValidStream strict (assignAttr E o a v).1 := by
  intro b
  by_cases hb : b = a
  · subst hb
    unfold assignAttr
    cases hw : stored E b v with
    | exit => exact h b
    | raise => exact h b
    | ok w =>
      refine ⟨w, by simp only [Dict.get?_set, if_pos], ?_, fun hb => (stored_allowed hw hb).2⟩
      rintro rfl hst
      rcases hs hst rfl with ⟨s, rfl⟩ | ⟨r, rfl⟩
      · simp only [stored] at hw
        split at hw
        · cases hw; exact .regex _
        · cases hw
      · cases hw; exact .regex _
  · rw [assign_get E o a b v hb]; exact h b

/-- C107: whatever is assigned to a valid stream, in any order and with any exceptions caught, every attribute but the pattern holds an allowed value
afterwards; so does the pattern if only strings and compiled patterns are assigned to it. Missing: other objects as the pattern (`C107_violation`). -/
theorem C107_history_partial (E : Engine Rx) (strict : Bool) (o : Instance Rx) (h : ValidStream strict o) (l : List (Attr × Obj Rx))
    (hl : strict = true → ∀ v, (Attr.regex, v) ∈ l → (∃ s, v = .str s) ∨ ∃ r, v = .rx r) : ValidStream strict (assignments E o l) := by
  induction l generalizing o with
  | nil => exact h
  | cons p l ih =>
    obtain ⟨a, v⟩ := p
    exact ih _ (h.assign a v fun hs ha => hl hs v (by simp [ha])) fun hs w hw => hl hs w (by simp [hw])

/-- C107: an attribute holds what the last successful assignment to it stored. -/
theorem C107_last (E : Engine Rx) (o : Instance Rx) (l l' : List (Attr × Obj Rx)) (a : Attr) (v : Obj Rx) (hv : Acceptable E a v) (ha : a ≠ .regex)
    (hl : ∀ w, (a, w) ∈ l' → ¬ Acceptable E a w) : (assignments E o (l ++ (a, v) :: l')).get? a = some v := by
  have key : ∀ (l' : List (Attr × Obj Rx)) (o : Instance Rx), (∀ w, (a, w) ∈ l' → ¬ Acceptable E a w) → (assignments E o l').get? a = o.get? a := by
    intro l'
    induction l' with
    | nil => intro o _; rfl
    | cons p l' ih =>
      intro o hl
      obtain ⟨b, w⟩ := p
      show (assignments E (assignAttr E o b w).1 l').get? a = _
      rw [ih _ fun x hx => hl x (by simp [hx])]
      by_cases hb : a = b
      · subst hb
        rw [(C107_assign E o a w).2.1 (hl w (by simp)) ha]
      · exact assign_get E o b a w hb
  show (List.foldl _ o (l ++ (a, v) :: l')).get? a = _
  rw [List.foldl_append, List.foldl_cons]
  have := key l' (assignAttr E (assignments E o l) a v).1 hl
  obtain ⟨w, h1, -, h3⟩ := (C107_assign E (assignments E o l) a v).1 hv
  rw [h1] at this
  simp only [Dict.get?_set, if_pos] at this
  rw [h3 ha] at this
  show (assignments E (assignAttr E (assignments E o l) a v).1 l').get? a = _
  rw [h1, h3 ha]; exact this

/-! ### construction -/

theorem assignAll_ok {E : Engine Rx} {o o' : Instance Rx} {l : List (Attr × Obj Rx)} (h : assignAll E o l = (o', .ok ())) :
    o' = assignments E o l ∧ ∀ p ∈ l, ∃ w, stored E p.1 p.2 = .ok w := by
  induction l generalizing o with
  | nil => cases h; exact ⟨rfl, by simp⟩
  | cons p l ih =>
    obtain ⟨a, v⟩ := p
    rw [assignAll] at h
    unfold assignAttr at h
    cases hw : stored E a v with
    | ok w =>
      simp only [hw] at h
      obtain ⟨h1, h2⟩ := ih h
      refine ⟨?_, ?_⟩
      · rw [h1]
        show _ = assignments E (assignAttr E o a v).1 l
        unfold assignAttr; rw [hw]
      · intro p hp
        rcases List.mem_cons.1 hp with rfl | hp
        · exact ⟨w, hw⟩
        · exact h2 p hp
    | exit => simp only [hw] at h; cases h
    | raise => simp only [hw] at h; cases h

theorem assignAll_of {E : Engine Rx} {l : List (Attr × Obj Rx)} (hl : ∀ p ∈ l, ∃ w, stored E p.1 p.2 = .ok w) (o : Instance Rx) :
    assignAll E o l = (assignments E o l, .ok ()) := by
  induction l generalizing o with
  | nil => rfl
  | cons p l ih =>
    obtain ⟨a, v⟩ := p
    obtain ⟨w, hw⟩ := hl (a, v) (by simp)
    rw [assignAll]
    have : assignAttr E o a v = (o.set a w, .ok ()) := by unfold assignAttr; rw [hw]
    rw [this]
    show assignAll E (o.set a w) l = _
    rw [ih fun p hp => hl p (by simp [hp])]
    show _ = (assignments E (assignAttr E o a v).1 l, _)
    rw [this]


/-- The argument given for an attribute. -/
def Arguments.at (x : Arguments Rx) : Attr → Obj Rx
  | .shortname => x.shortname
  | .kind => x.kind
  | .regex => x.regex
  | .message => x.message
  | .suggestion => x.suggestion
  | .location => x.location
  | .recover => x.recover
  | .inverse => x.inverse

theorem Arguments.mem_list (x : Arguments Rx) (p : Attr × Obj Rx) : p ∈ x.list ↔ p.2 = x.at p.1 := by
  obtain ⟨a, v⟩ := p
  cases a <;> simp [Arguments.list, Arguments.at]

theorem construct_ok {E : Engine Rx} {x : Arguments Rx} {o : Instance Rx} (h : construct E x = .ok o) :
    ∀ a, ∃ w, stored E a (x.at a) = .ok w ∧ o.get? a = some w := by
  unfold construct at h
  rcases hr : assignAll E [] x.list with ⟨o', r⟩
  rw [hr] at h
  cases r with
  | exit => cases h
  | raise => cases h
  | ok u =>
    cases h
    obtain ⟨h1, h2⟩ := assignAll_ok hr
    have hs : ∀ a, ∃ w, stored E a (x.at a) = .ok w := fun a => h2 (a, x.at a) ((x.mem_list _).2 rfl)
    choose w hw using hs
    have step : ∀ (o : Instance Rx) a, (assignAttr E o a (x.at a)).1 = o.set a (w a) := by
      intro o a; unfold assignAttr; rw [hw a]
    have : o = [(Attr.shortname, w .shortname), (.kind, w .kind), (.regex, w .regex), (.message, w .message), (.suggestion, w .suggestion),
        (.location, w .location), (.recover, w .recover), (.inverse, w .inverse)] := by
      rw [h1]
      have e : x.list = [Attr.shortname, .kind, .regex, .message, .suggestion, .location, .recover, .inverse].map fun a => (a, x.at a) := rfl
      rw [e]
      simp only [assignments, List.map_cons, List.map_nil, List.foldl_cons, List.foldl_nil, step]
      rfl
    intro a
    exact ⟨w a, hw a, by rw [this]; cases a <;> rfl⟩

theorem construct_of {E : Engine Rx} {x : Arguments Rx} (h : ∀ a, ∃ w, stored E a (x.at a) = .ok w) : ∃ o, construct E x = .ok o := by
  refine ⟨assignments E [] x.list, ?_⟩
  unfold construct
  rw [assignAll_of (fun p hp => by rw [(x.mem_list p).1 hp]; exact h p.1)]

/-- C107: if every argument is acceptable the object is built, valid, and has exactly the arguments as its attributes (a pattern given as a string:
the compiled pattern). -/
theorem C107_construct (E : Engine Rx) (x : Arguments Rx) (h : ∀ a, Acceptable E a (x.at a)) :
    ∃ o, construct E x = .ok o ∧ ValidStream true o ∧ (∀ a, a ≠ .regex → getAttr o a = .ok (x.at a)) ∧
      (∀ r, x.regex = .rx r → getAttr o .regex = .ok (.rx r)) ∧
      (∀ s r, x.regex = .str s → E.compile s = some r → getAttr o .regex = .ok (.rx r)) := by
  have hst : ∀ a, ∃ w, stored E a (x.at a) = .ok w := by
    intro a
    rcases h a with h | ⟨rfl, s, r, hx, hs⟩
    · exact ⟨_, stored_of_allowed h⟩
    · exact ⟨.rx r, by rw [hx]; simp only [stored, hs]⟩
  obtain ⟨o, ho⟩ := construct_of hst
  have hget := construct_ok ho
  refine ⟨o, ho, ?_, ?_, ?_, ?_⟩
  · intro a
    obtain ⟨w, hw, hg⟩ := hget a
    refine ⟨w, hg, ?_, fun ha => (stored_allowed hw ha).2⟩
    rintro rfl -
    exact stored_regex hw (h .regex)
  · intro a ha
    obtain ⟨w, hw, hg⟩ := hget a
    rw [getAttr, hg, (stored_allowed hw ha).1]
  · intro r hr
    obtain ⟨w, hw, hg⟩ := hget .regex
    rw [show x.at .regex = .rx r from hr] at hw
    cases hw
    rw [getAttr, hg]
  · intro s r hx hs
    obtain ⟨w, hw, hg⟩ := hget .regex
    rw [show x.at .regex = .str s from hx, stored, hs] at hw
    cases hw
    rw [getAttr, hg]

theorem assignAll_first (E : Engine Rx) (l : List (Attr × Obj Rx)) (o : Instance Rx)
    (h : ∃ p ∈ l, ∀ w, stored E p.1 p.2 ≠ .ok w) : ∃ o' e, assignAll E o l = (o', .raise e) ∧ (e = .valueError ∨ e = .reError) := by
  induction l generalizing o with
  | nil => obtain ⟨p, hp, -⟩ := h; cases hp
  | cons p l ih =>
    obtain ⟨a, v⟩ := p
    rw [assignAll]
    unfold assignAttr
    rcases stored_cases E a v with ⟨w, hw⟩ | ⟨hw, -⟩ | ⟨hw, -⟩
    · simp only [hw]
      refine ih _ ?_
      obtain ⟨q, hq, hn⟩ := h
      rcases List.mem_cons.1 hq with rfl | hq
      · exact absurd hw (hn w)
      · exact ⟨q, hq, hn⟩
    · simp only [hw]; exact ⟨_, _, rfl, .inl rfl⟩
    · simp only [hw]; exact ⟨_, _, rfl, .inr rfl⟩

/-- C107: if an argument (other than the pattern) is not acceptable, or the pattern is a string that does not compile, there is no object: the
constructor raises `ValueError` or the exception of the regular expression library. -/
theorem C107_construct_refuses (E : Engine Rx) (x : Arguments Rx) (a : Attr) (h : ¬ Acceptable E a (x.at a))
    (ha : a = .regex → ∃ s, x.regex = .str s) : construct E x = .raise .valueError ∨ construct E x = .raise .reError := by
  have hb : ∀ w, stored E a (x.at a) ≠ .ok w := by
    intro w hw
    by_cases har : a = .regex
    · obtain ⟨s, hs⟩ := ha har
      subst har
      rw [show x.at .regex = .str s from hs] at hw h
      simp only [stored] at hw
      cases hc : E.compile s with
      | none => rw [hc] at hw; cases hw
      | some r => exact h (.inr ⟨rfl, s, r, rfl, hc⟩)
    · obtain ⟨rfl, hal⟩ := stored_allowed hw har
      exact h (.inl hal)
  obtain ⟨o', e, he, hee⟩ := assignAll_first E x.list [] ⟨(a, x.at a), (x.mem_list _).2 rfl, hb⟩
  unfold construct
  rw [he]
  rcases hee with rfl | rfl
  · exact .inl rfl
  · exact .inr rfl

theorem getAttr_of {o : Instance Rx} {a : Attr} {v : Obj Rx} (h : o.get? a = some v) : getAttr o a = .ok v := by rw [getAttr, h]

/-- The arguments that are the attributes of the object. -/
theorem ValidStream.arguments {o : Instance Rx} (h : ValidStream true o) :
    ∃ x : Arguments Rx, (∀ a, o.get? a = some (x.at a)) ∧ (∀ a, Allowed a (x.at a)) := by
  choose f hf h1 h2 using h
  refine ⟨⟨f .shortname, f .kind, f .regex, f .message, f .suggestion, f .location, f .recover, f .inverse⟩, ?_, ?_⟩
  · intro a; rw [hf a]; cases a <;> rfl
  · intro a
    have : Allowed a (f a) := by
      by_cases ha : a = .regex
      · exact h1 a ha rfl
      · exact h2 a ha
    cases a <;> exact this

/-- C107: `check_line` of a valid stream never raises; the answer is `None` exactly if the pattern is not found in the line, and else a valid stream with
the same attributes; the stream itself is not changed (the function returns no other object). -/
theorem C107_check_line (E : Engine Rx) (o : Instance Rx) (h : ValidStream true o) (line : Str) :
    ∃ r : Rx, getAttr o .regex = .ok (.rx r) ∧
      (E.search r line = false → checkInstance E o line = .ok none) ∧
      (E.search r line = true → ∃ n, checkInstance E o line = .ok (some n) ∧ ValidStream true n ∧ ∀ a, getAttr n a = getAttr o a) := by
  obtain ⟨x, hx, hal⟩ := h.arguments
  have hr := hal .regex
  obtain ⟨r, hr'⟩ : ∃ r, x.at .regex = .rx r := by
    generalize x.at .regex = v at hr
    cases hr with
    | regex r => exact ⟨r, rfl⟩
  have g : ∀ a, getAttr o a = .ok (x.at a) := fun a => getAttr_of (hx a)
  refine ⟨r, by rw [g, hr'], ?_, ?_⟩
  · intro hs
    unfold checkInstance
    rw [g, Res.ok_bind, hr']
    simp only [hs]
    rfl
  · intro hs
    obtain ⟨n, hn, hv, hat, hrx, -⟩ := C107_construct E x fun a => .inl (hal a)
    refine ⟨n, ?_, hv, ?_⟩
    · unfold checkInstance
      rw [g, Res.ok_bind, hr']
      simp only [hs, if_true, g, Res.ok_bind]
      have e : (⟨x.at .shortname, x.at .kind, .rx r, x.at .message, x.at .suggestion, x.at .location, x.at .recover, x.at .inverse⟩ : Arguments Rx)
          = x := by rw [← hr']; rfl
      rw [e, hn]; rfl
    · intro a
      by_cases ha : a = .regex
      · subst ha; rw [hrx r hr', g, hr']
      · rw [hat a ha, g]

/-- C107: the text of a valid stream is `(kind) shortname: message`, and `recoverable` is `recover`. -/
theorem C107_report (o : Instance Rx) (strict : Bool) (h : ValidStream strict o) :
    ∃ k n m b, getAttr o .kind = .ok (.str k) ∧ getAttr o .shortname = .ok (.str n) ∧ getAttr o .message = .ok (.str m) ∧
      getAttr o .recover = .ok (.bool b) ∧ recoverable o = .ok (.bool b) ∧
      reportLine o = .ok (c!"(" ++ k ++ c!") " ++ n ++ c!": " ++ m) := by
  obtain ⟨vk, gk, -, ak⟩ := h .kind
  obtain ⟨vn, gn, -, an⟩ := h .shortname
  obtain ⟨vm, gm, -, am⟩ := h .message
  obtain ⟨vb, gb, -, ab⟩ := h .recover
  have ak := ak (by decide)
  have an := an (by decide)
  have am := am (by decide)
  have ab := ab (by decide)
  cases ak with
  | kind k hk =>
  cases an with
  | shortname n =>
  cases am with
  | message m =>
  cases ab with
  | recover b =>
  refine ⟨k, n, m, b, getAttr_of gk, getAttr_of gn, getAttr_of gm, getAttr_of gb, getAttr_of gb, ?_⟩
  unfold reportLine
  rw [getAttr_of gk, getAttr_of gn, getAttr_of gm]
  rfl

/-- C107 fails for the pattern: any object that is not a string is stored, by the setter and the constructor, and then no line can be checked. -/
theorem C107_violation (E : Engine Rx) (v : Obj Rx) (hs : ∀ s, v ≠ .str s) (hr : ∀ r, v ≠ .rx r) :
    (∀ o, assignAttr E o .regex v = (o.set .regex v, .ok ())) ∧
    ∃ o, construct E ⟨.str c!"ibzkpt", .str c!"ERROR", v, .str c!"message", .none, .str c!"STDOUT", .bool false, .bool false⟩ = .ok o ∧
      ∀ line, checkInstance E o line = .raise .attributeError := by
  have h : stored E .regex v = .ok v := by
    cases v with
    | str s => exact absurd rfl (hs s)
    | rx r => exact absurd rfl (hr r)
    | bool b => rfl
    | none => rfl
    | other => rfl
  refine ⟨fun o => by unfold assignAttr; rw [h], ?_⟩
  have hc : ∀ a, ∃ w, stored E a
      ((⟨.str c!"ibzkpt", .str c!"ERROR", v, .str c!"message", .none, .str c!"STDOUT", .bool false, .bool false⟩ : Arguments Rx).at a) = .ok w := by
    intro a
    cases a
    · exact ⟨_, rfl⟩
    · exact ⟨_, stored_of_allowed (.kind _ (.inl rfl))⟩
    · exact ⟨_, h⟩
    · exact ⟨_, rfl⟩
    · exact ⟨_, rfl⟩
    · exact ⟨_, stored_of_allowed .stdout⟩
    · exact ⟨_, rfl⟩
    · exact ⟨_, rfl⟩
  obtain ⟨o, ho⟩ := construct_of hc
  refine ⟨o, ho, fun line => ?_⟩
  obtain ⟨w, hw, hg⟩ := construct_ok ho .regex
  rw [show Arguments.at _ .regex = v from rfl, h] at hw
  cases hw
  unfold checkInstance
  rw [getAttr_of hg, Res.ok_bind]
  cases v with
  | str s => exact absurd rfl (hs s)
  | rx r => exact absurd rfl (hr r)
  | bool b => rfl
  | none => rfl
  | other => rfl

/-! ### the entries of a configuration -/

/-- The constructor as one chain. -/
theorem construct_chain (E : Engine Rx) (x : Arguments Rx) : construct E x =
    (stored E .shortname x.shortname >>= fun a => stored E .kind x.kind >>= fun b => stored E .regex x.regex >>= fun c =>
     stored E .message x.message >>= fun d => stored E .suggestion x.suggestion >>= fun e => stored E .location x.location >>= fun f =>
     stored E .recover x.recover >>= fun g => stored E .inverse x.inverse >>= fun h =>
     .ok [(Attr.shortname, a), (.kind, b), (.regex, c), (.message, d), (.suggestion, e), (.location, f), (.recover, g), (.inverse, h)]) := by
  simp only [construct, Arguments.list, assignAll, assignAttr]
  rcases stored E .shortname x.shortname with a | c | e
  case exit => rfl
  case raise => rfl
  simp only [Res.ok_bind]
  rcases stored E .kind x.kind with b | c | e
  case exit => rfl
  case raise => rfl
  simp only [Res.ok_bind]
  rcases stored E .regex x.regex with b | c | e
  case exit => rfl
  case raise => rfl
  simp only [Res.ok_bind]
  rcases stored E .message x.message with b | c | e
  case exit => rfl
  case raise => rfl
  simp only [Res.ok_bind]
  rcases stored E .suggestion x.suggestion with b | c | e
  case exit => rfl
  case raise => rfl
  simp only [Res.ok_bind]
  rcases stored E .location x.location with b | c | e
  case exit => rfl
  case raise => rfl
  simp only [Res.ok_bind]
  rcases stored E .recover x.recover with b | c | e
  case exit => rfl
  case raise => rfl
  simp only [Res.ok_bind]
  rcases stored E .inverse x.inverse with b | c | e
  case exit => rfl
  case raise => rfl
  rfl

/-- The keyword arguments of an entry of the configuration, the defaults filled in. -/
def entryArguments (short : Str) (k r m : Obj Rx) (c : Conf Rx) : Arguments Rx :=
  ⟨.str short, k, r, m, (c.get? c!"suggestion").getD .none, (c.get? c!"location").getD (.str c!"STDOUT"),
   (c.get? c!"recover").getD (.bool false), (c.get? c!"inverse").getD (.bool false)⟩

/-- The attributes of a trigger; `r` is the pattern as given in the entry. -/
def attributesOf (r : Obj Rx) (t : Trigger Rx) : Instance Rx :=
  [(Attr.shortname, .str t.shortname), (.kind, .str t.kind), (.regex, (t.regex.map Obj.rx).getD r), (.message, .str t.message),
   (.suggestion, (t.suggestion.map Obj.str).getD .none), (.location, .str t.location), (.recover, .bool t.recover), (.inverse, .bool t.inverse)]

/-- C107: the object built from an entry of a configuration is the one the keyword arguments describe; the outcomes, errors included, are the same. -/
theorem C107_entry (E : Engine Rx) (short : Str) (c : Conf Rx) (hk : ∀ k ∈ c.keys, k ∈ allowedKeys) (k r m : Obj Rx)
    (h1 : c.get? c!"kind" = some k) (h2 : c.get? c!"regex" = some r) (h3 : c.get? c!"message" = some m) :
    construct E (entryArguments short k r m c) = (mkTrigger E short c >>= fun t => .ok (attributesOf r t)) := by
  have ha : c.keys.all (fun k => decide (k ∈ allowedKeys)) = true := by simpa using hk
  rw [construct_chain]
  unfold mkTrigger
  rw [if_pos ha, h1, h2, h3]
  simp only [entryArguments]
  show (Res.ok (Obj.str short) >>= _) = _
  rw [Res.ok_bind]
  have e1 : stored E .kind k = (setKind k >>= fun s => .ok (.str s)) := by
    cases k <;> simp only [stored, setKind] <;> try rfl
    split <;> rfl
  have e2 : stored E .regex r = (setRegex E r >>= fun s => .ok ((s.map Obj.rx).getD r)) := by
    cases r <;> simp only [stored, setRegex] <;> try rfl
    rename_i s
    cases E.compile s <;> rfl
  have e3 : stored E .message m = (setMessage m >>= fun s => .ok (.str s)) := by cases m <;> rfl
  have e4 : stored E .suggestion ((c.get? c!"suggestion").getD .none) =
      (setSuggestion (c.get? c!"suggestion") >>= fun s => .ok ((s.map Obj.str).getD .none)) := by
    rcases c.get? c!"suggestion" with _ | v
    · rfl
    · cases v <;> rfl
  have e5 : stored E .location ((c.get? c!"location").getD (.str c!"STDOUT")) = (setLocation (c.get? c!"location") >>= fun s => .ok (.str s)) := by
    rcases c.get? c!"location" with _ | v
    · exact stored_of_allowed .stdout
    · cases v <;> simp only [Option.getD, stored, setLocation] <;> try rfl
      split <;> rfl
  have e6 : ∀ a, a = Attr.recover ∨ a = .inverse → ∀ o : Option (Obj Rx), stored E a (o.getD (.bool false)) = (setBool o >>= fun s => .ok (.bool s)) := by
    rintro a (rfl | rfl) (_ | v)
    · rfl
    · cases v <;> rfl
    · rfl
    · cases v <;> rfl
  rw [e1, e2, e3, e4, e5, e6 .recover (.inl rfl), e6 .inverse (.inr rfl)]
  rcases setKind k with b | _ | _ <;> try rfl
  rcases setRegex E r with b | _ | _ <;> try rfl
  rcases setMessage m with b | _ | _ <;> try rfl
  rcases setSuggestion (c.get? c!"suggestion") with b | _ | _ <;> try rfl
  rcases setLocation (c.get? c!"location") with b | _ | _ <;> try rfl
  rcases setBool (c.get? c!"recover") with b | _ | _ <;> try rfl
  rcases setBool (c.get? c!"inverse") with b | _ | _ <;> rfl

/-- Non-vacuity: an engine, a stream, its report; a refused assignment keeps the kind; a found line. -/
example :
    let E : Engine Str := ⟨fun s => if s = c!"(" then none else some s, fun r l => decide (r = l)⟩
    let x : Arguments Str := { shortname := .str c!"ibzkpt", kind := .str c!"Error", regex := .str c!"bad", message := .str c!"stop" }
    ∃ o, construct E x = .ok o ∧ reportLine o = .ok c!"(Error) ibzkpt: stop" ∧
      getAttr (assignments E o [(.kind, .str c!"NOTE"), (.location, .none), (.recover, .bool true)]) .kind = .ok (.str c!"Error") ∧
      checkInstance E o c!"good" = .ok none ∧ checkInstance E o c!"bad" = .ok (some o) := by
  refine ⟨_, rfl, ?_, ?_, ?_, ?_⟩ <;> rfl

end Verif.Stream
