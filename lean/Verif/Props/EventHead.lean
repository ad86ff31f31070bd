import Verif.Props.EventBasics
/-! # The event driven parser on the sections in front of the ionic steps -/
set_option autoImplicit false
namespace Verif.VasprunEvent
open Verif Verif.Utils Verif.Xml Verif.Vasprun

/-- Evaluate what is done for one event. -/
macro "evs" "[" ts:Lean.Parser.Tactic.simpLemma,* "]" : tactic =>
  `(tactic| simp [step, seq, headStage, calcStage, atomsStage, groupStage, versionStage, paramStage, when, speciesRows, kpointsStage, dosRows,
      dosSRows, opens, closes, opensN, closesN, starts, ends, collect, switch, $ts,*])

/-- The tags that begin a section of the file. -/
def sectionTags : List Str := [c!"generator", c!"parameters", c!"calculation", c!"kpoints", c!"projected"]

/-- Not the beginning of a section and not the list of atoms. -/
def Still (m : Node) : Prop := m.tag ∉ sectionTags ∧ ¬ (m.tag = c!"array" ∧ name m = some c!"atoms")

/-- The tree has no section in it. -/
def Filler (n : Node) : Prop := ∀ m ∈ n :: below n, Still m

theorem Still.ne {m : Node} (h : Still m) : m.tag ≠ c!"generator" ∧ m.tag ≠ c!"parameters" ∧ m.tag ≠ c!"calculation" ∧ m.tag ≠ c!"kpoints" ∧
    m.tag ≠ c!"projected" := by
  have := h.1
  simpa [sectionTags, not_or] using this

theorem still_step (kb : Bool) (o : Out) (e : Event) (h : Still e.node) : step kb e ⟨{}, o⟩ = .ok ⟨{}, o⟩ := by
  obtain ⟨h1, h2, h3, h4, h5⟩ := h.ne
  have h6 := h.2
  cases hs : e.start <;> evs [h1, h2, h3, h4, h5, h6, hs]

theorem run_filler (kb : Bool) (o : Out) (p : Option Node) (n : Node) (h : Filler n) : run kb (events p n) ⟨{}, o⟩ = .ok ⟨{}, o⟩ := by
  have := run_events kb (fun o => (⟨{}, o⟩ : St)) (fun o _ => .ok o) (events p n)
    (fun e he a => by rw [still_step kb a e (h _ (mem_events n p e he).1)]; rfl) o
  rw [this, foldlM'_pure]
  have : ∀ l : List Event, l.foldl (fun (o : Out) _ => o) o = o := fun l => by induction l with
    | nil => rfl
    | cons _ _ ih => exact ih
  rw [this]; rfl

/-! ### generator -/

/-- Is this the name of the element? -/
def hasName (v : Str) (n : Node) : Bool := decide (name n = some v)

/-- What an event does to the version. -/
def setVersion (o : Out) (e : Event) : Out := if e.start && hasName c!"version" e.node then { o with version := e.seen } else o

theorem gen_step (kb : Bool) (o : Out) (e : Event) (h : Still e.node) : step kb e ⟨{ gen := true }, o⟩ = .ok ⟨{ gen := true }, setVersion o e⟩ := by
  obtain ⟨h1, h2, h3, h4, h5⟩ := h.ne
  have h6 := h.2
  unfold setVersion hasName
  cases hs : e.start <;> by_cases hn : name e.node = some c!"version" <;> evs [h1, h2, h3, h4, h5, h6, hs, hn]

theorem foldl_setVersion (o : Out) (es : List Event) : es.foldl setVersion o =
    { o with version := es.foldl (fun v e => if e.start && hasName c!"version" e.node then e.seen else v) o.version } := by
  induction es generalizing o with
  | nil => rfl
  | cons e es ih =>
    rw [List.foldl_cons, List.foldl_cons, ih]
    unfold setVersion
    split <;> rfl

/-- The last of at most one setting. -/
theorem foldl_last {α β : Type} (k : α → Bool) (f : α → β) (v : β) (es : List α) :
    (es.filter k = [] → es.foldl (fun v e => if k e then f e else v) v = v) ∧
    (∀ x, es.filter k = [x] → es.foldl (fun v e => if k e then f e else v) v = f x) := by
  induction es generalizing v with
  | nil => exact ⟨fun _ => rfl, fun x h => (by cases h)⟩
  | cons e es ih =>
    rw [List.foldl_cons]
    cases hk : k e with
    | true =>
      rw [List.filter_cons_of_pos hk]
      refine ⟨fun h => (by cases h), fun x h => ?_⟩
      injection h with h1 h2
      subst h1
      exact (ih _).1 h2
    | false =>
      rw [List.filter_cons_of_neg (by simp [hk])]
      exact ih v

/-- The start events of elements of some kind, and these elements. -/
theorem filter_started (k : Node → Bool) (es : List Event) :
    ((es.filter fun e => e.start && k e.node).map fun e => e.node) = (es.filterMap started).filter k := by
  induction es with
  | nil => rfl
  | cons e es ih =>
    cases hs : e.start with
    | true =>
      rw [List.filterMap_cons_some (b := e.node) (by simp [started, hs])]
      cases hk : k e.node with
      | true => rw [List.filter_cons_of_pos (by simp [hs, hk]), List.filter_cons_of_pos hk, List.map_cons, ih]
      | false => rw [List.filter_cons_of_neg (by simp [hs, hk]), List.filter_cons_of_neg (by simp [hk]), ih]
    | false =>
      rw [List.filterMap_cons_none (by simp [started, hs]), List.filter_cons_of_neg (by simp [hs]), ih]

theorem map_eq_singleton {α β : Type} {f : α → β} {l : List α} {y : β} (h : l.map f = [y]) : ∃ x, l = [x] ∧ f x = y := by
  cases l with
  | nil => cases h
  | cons a as => cases as with
    | nil => injection h with h; exact ⟨a, rfl, h⟩
    | cons b bs => simp at h

/-- `generator` with at most one element named `version`. -/
theorem run_generator (kb : Bool) (o : Out) (p : Option Node) (g : Node) (ht : g.tag = c!"generator") (hs : ∀ m ∈ below g, Still m)
    (hl : ((g :: below g).filter (hasName c!"version")).length ≤ 1) :
    run kb (events p g) ⟨{}, o⟩ = .ok ⟨{}, { o with version := match (g :: below g).filter (hasName c!"version") with
      | [] => o.version
      | v :: _ => v.text }⟩ := by
  have hrun : run kb (events p g) ⟨{}, o⟩ = .ok ⟨{}, (events p g).foldl setVersion o⟩ := by
    rw [run_node]
    have h1 : step kb (starts p g) ⟨{}, o⟩ = .ok ⟨{ gen := true }, setVersion o (starts p g)⟩ := by
      unfold setVersion hasName
      by_cases hn : name g = some c!"version" <;> evs [ht, hn]
    rw [h1, Res.ok_bind, run_events kb (fun o => (⟨{ gen := true }, o⟩ : St)) (fun o e => .ok (setVersion o e)) _
      (fun e he a => by rw [gen_step kb a e (hs _ (by rw [below_eq]; exact (mem_eventsAll _ _ e he).1))]; rfl), foldlM'_pure]
    simp only [Res.ok_bind]
    have h2 : ∀ o, step kb (ends p g) ⟨{ gen := true }, o⟩ = .ok ⟨{}, o⟩ := fun o => by evs [ht]
    rw [h2, events_eq, List.foldl_cons, List.foldl_append]
    rfl
  rw [hrun, foldl_setVersion]
  have hf := filter_started (hasName c!"version") (events p g)
  rw [started_events] at hf
  cases hv : (g :: below g).filter (hasName c!"version") with
  | nil =>
    rw [hv] at hf
    rw [(foldl_last (fun e : Event => e.start && hasName c!"version" e.node) (fun e => e.seen) o.version (events p g)).1 (List.map_eq_nil_iff.1 hf)]
  | cons v vs =>
    rw [hv] at hf hl
    cases vs with
    | cons _ _ => simp at hl
    | nil =>
      obtain ⟨e, h1, h2⟩ := map_eq_singleton hf
      rw [(foldl_last (fun e : Event => e.start && hasName c!"version" e.node) (fun e => e.seen) o.version (events p g)).2 e h1]
      have hm : e ∈ events p g := (List.mem_filter.1 (h1 ▸ List.mem_singleton.2 rfl : e ∈ (events p g).filter _)).1
      rw [(mem_events g p e hm).2, h2]

/-! ### parameters -/

theorem par_step (kb : Bool) (o : Out) (e : Event) (h : Still e.node) : step kb e ⟨{ par := true }, o⟩ =
    (setParam o.params e >>= fun q => .ok ⟨{ par := true }, { o with params := q }⟩) := by
  obtain ⟨h1, h2, h3, h4, h5⟩ := h.ne
  have h6 := h.2
  cases hp : setParam o.params e <;> cases hs : e.start <;> evs [h1, h2, h3, h4, h5, h6, hs, hp]

/-- `parameters`. -/
theorem run_parameters (kb : Bool) (o : Out) (p : Option Node) (g : Node) (ht : g.tag = c!"parameters") (hs : ∀ m ∈ below g, Still m) :
    run kb (events p g) ⟨{}, o⟩ = (Res.foldlM' setParam o.params (events p g) >>= fun q => .ok ⟨{}, { o with params := q }⟩) := by
  rw [run_node, events_eq, foldlM'_cons]
  have h1 : step kb (starts p g) ⟨{}, o⟩ = (setParam o.params (starts p g) >>= fun q => .ok ⟨{ par := true }, { o with params := q }⟩) := by
    cases hp : setParam o.params (starts p g) <;> unfold starts at hp <;> evs [ht, hp]
  rw [h1]
  cases setParam o.params (starts p g) with
  | exit c => rfl
  | raise x => rfl
  | ok q =>
    simp only [Res.ok_bind]
    rw [run_events kb (fun q => (⟨{ par := true }, { o with params := q }⟩ : St)) setParam _
      (fun e he a => by rw [par_step kb _ e (hs _ (by rw [below_eq]; exact (mem_eventsAll _ _ e he).1))]), foldlM'_append]
    cases Res.foldlM' setParam q (eventsAll (some g) g.children) with
    | exit c => rfl
    | raise x => rfl
    | ok q =>
      simp only [Res.ok_bind]
      rw [foldlM'_cons]
      have h3 : setParam q (ends p g) = .ok q := rfl
      rw [h3]
      evs [ht]
      rfl

theorem asSeen_eq {e : Event} (h : e.seen = e.node.text) : asSeen e = e.node := by
  unfold asSeen
  rw [h]
  cases e.node; rfl

/-- What one parameter is after the events of an element. -/
theorem fold_param {α : Type} (π : Params → Option α) (conv : Node → Res (Option α)) (nm : Str)
    (hkeep : ∀ q e q', setParam q e = .ok q' → (e.start && hasName nm e.node) = false → π q' = π q)
    (hset : ∀ q e q', e.start = true → name e.node = some nm → e.seen = e.node.text → setParam q e = .ok q' → conv e.node = .ok (π q'))
    (p : Option Node) (g : Node) (hl : ((g :: below g).filter (hasName nm)).length ≤ 1) (q q' : Params) (hq : π q = none)
    (h : Res.foldlM' setParam q (events p g) = .ok q') : fetch conv ((g :: below g).filter (hasName nm)) = .ok (π q') := by
  have hf := filter_started (hasName nm) (events p g)
  rw [started_events] at hf
  cases hv : (g :: below g).filter (hasName nm) with
  | nil =>
    rw [hv] at hf
    have hf := List.map_eq_nil_iff.1 hf
    rw [foldlM'_keeps (π := π) (fun e he s s' h1 => hkeep s e s' h1 (by
      by_contra hc
      have : e ∈ (events p g).filter fun e => e.start && hasName nm e.node := List.mem_filter.2 ⟨he, by simpa using hc⟩
      rw [hf] at this; cases this)) h, hq]
    rfl
  | cons v vs =>
    rw [hv] at hf hl
    cases vs with
    | cons _ _ => simp at hl
    | nil =>
      obtain ⟨e, h1, h2⟩ := map_eq_singleton hf
      obtain ⟨s1, s2, g1, _, g3, _⟩ := foldlM'_unique (π := π) h1 (fun e he hk s s' hs => hkeep s e s' hs hk) h
      have hm : e ∈ (events p g).filter fun e => e.start && hasName nm e.node := h1 ▸ List.mem_singleton.2 rfl
      obtain ⟨hm1, hm2⟩ := List.mem_filter.1 hm
      simp only [Bool.and_eq_true, hasName, decide_eq_true_eq] at hm2
      have := hset s1 e s2 hm2.1 hm2.2 (mem_events g p e hm1).2 g1
      rw [← h2, g3]
      exact this

theorem keep_param {q q' : Params} {e : Event} (h : setParam q e = .ok q') :
    ((e.start && hasName c!"SYMPREC" e.node) = false → q'.symprec = q.symprec) ∧
    ((e.start && hasName c!"ISPIN" e.node) = false → q'.ispin = q.ispin) ∧
    ((e.start && hasName c!"ISMEAR" e.node) = false → q'.ismear = q.ismear) ∧
    ((e.start && hasName c!"SIGMA" e.node) = false → q'.sigma = q.sigma) ∧
    ((e.start && hasName c!"NBANDS" e.node) = false → q'.nbands = q.nbands) ∧
    ((e.start && hasName c!"NELECT" e.node) = false → q'.nelect = q.nelect) ∧
    ((e.start && hasName c!"SYSTEM" e.node) = false → q'.system = q.system) ∧
    ((e.start && hasName c!"NELM" e.node && (e.parent.map (hasName c!"electronic convergence")).getD false) = false → q'.nelm = q.nelm) ∧
    ((e.start && hasName c!"NSW" e.node) = false → q'.nsw = q.nsw) := by
  unfold setParam at h
  unfold hasName
  cases hs : e.start with
  | false => rw [hs] at h; injection h with h; subst h; simp
  | true =>
    rw [hs] at h
    simp only [if_true] at h
    cases hn : name e.node with
    | none => rw [hn] at h; injection h with h; subst h; simp
    | some v =>
      rw [hn] at h
      simp only [] at h
      split at h
      · subst v; obtain ⟨x, _, h⟩ := Res.bind_eq_ok.1 h; injection h with h; subst h; simp
      split at h
      · subst v; obtain ⟨x, _, h⟩ := Res.bind_eq_ok.1 h; injection h with h; subst h; simp
      split at h
      · subst v; obtain ⟨x, _, h⟩ := Res.bind_eq_ok.1 h; injection h with h; subst h; simp
      split at h
      · subst v; obtain ⟨x, _, h⟩ := Res.bind_eq_ok.1 h; injection h with h; subst h; simp
      split at h
      · subst v; obtain ⟨x, _, h⟩ := Res.bind_eq_ok.1 h; injection h with h; subst h; simp
      split at h
      · subst v; obtain ⟨x, _, h⟩ := Res.bind_eq_ok.1 h; injection h with h; subst h; simp
      split at h
      · subst v; injection h with h; subst h; simp
      split at h
      · subst v
        obtain ⟨b, hb, h⟩ := Res.bind_eq_ok.1 h
        unfold parentIs at hb
        cases hp : e.parent with
        | none => rw [hp] at hb; cases hb
        | some p =>
          rw [hp] at hb
          injection hb with hb
          subst hb
          split at h
          · rename_i hc
            obtain ⟨x, _, h⟩ := Res.bind_eq_ok.1 h; injection h with h; subst h
            simp only [decide_eq_true_eq] at hc
            simp [hc]
          · injection h with h; subst h; simp
      split at h
      · subst v; obtain ⟨x, _, h⟩ := Res.bind_eq_ok.1 h; injection h with h; subst h; simp
      · injection h with h; subst h; simp

/-- At most one element has this name, and if there is one, it is the one at the path. -/
def OnlyAt (g : Node) (nm : Str) (path : List Step) : Prop :=
  (g :: below g).filter (hasName nm) = findRel g path ∧ (findRel g path).length ≤ 1

/-- Each parameter is in its place and given at most once. There may be an element named `NELM` outside of the electronic convergence. -/
structure ParametersOk (g : Node) : Prop where
  tag : g.tag = c!"parameters"
  still : ∀ m ∈ below g, Still m
  name : name g = none
  symprec : OnlyAt g c!"SYMPREC" [tn c!"separator" c!"symmetry", tn c!"i" c!"SYMPREC"]
  sigma : OnlyAt g c!"SIGMA" [tn c!"separator" c!"electronic", tn c!"separator" c!"electronic smearing", tn c!"i" c!"SIGMA"]
  ismear : OnlyAt g c!"ISMEAR" [tn c!"separator" c!"electronic", tn c!"separator" c!"electronic smearing", tn c!"i" c!"ISMEAR"]
  ispin : OnlyAt g c!"ISPIN" [tn c!"separator" c!"electronic", tn c!"separator" c!"electronic spin", tn c!"i" c!"ISPIN"]
  nbands : OnlyAt g c!"NBANDS" [tn c!"separator" c!"electronic", tn c!"i" c!"NBANDS"]
  nelect : OnlyAt g c!"NELECT" [tn c!"separator" c!"electronic", tn c!"i" c!"NELECT"]
  system : OnlyAt g c!"SYSTEM" [tn c!"separator" c!"general", tn c!"i" c!"SYSTEM"]
  nsw : OnlyAt g c!"NSW" [tn c!"separator" c!"ionic", tn c!"i" c!"NSW"]
  nelm : (((pairs g).filter fun x => hasName c!"NELM" x.2 && hasName c!"electronic convergence" x.1).map Prod.snd =
      findRel g [tn c!"separator" c!"electronic", tn c!"separator" c!"electronic convergence", tn c!"i" c!"NELM"]) ∧
    (findRel g [tn c!"separator" c!"electronic", tn c!"separator" c!"electronic convergence", tn c!"i" c!"NELM"]).length ≤ 1

theorem nelm_events (p : Option Node) (g : Node) (hn : name g = none) :
    (((events p g).filter fun e => e.start && hasName c!"NELM" e.node && (e.parent.map (hasName c!"electronic convergence")).getD false).map fun e => e.node) =
    ((pairs g).filter fun x => hasName c!"NELM" x.2 && hasName c!"electronic convergence" x.1).map Prod.snd := by
  have key : ∀ es : List Event, ((es.filter fun e => e.start && hasName c!"NELM" e.node && (e.parent.map (hasName c!"electronic convergence")).getD false).map
      fun e => e.node) = ((es.filterMap startedIn).filter fun x => hasName c!"NELM" x.2 && hasName c!"electronic convergence" x.1).map Prod.snd := by
    intro es
    induction es with
    | nil => rfl
    | cons e es ih =>
      cases hs : e.start with
      | false => rw [List.filterMap_cons_none (by simp [startedIn, hs]), List.filter_cons_of_neg (by simp [hs]), ih]
      | true =>
        cases hp : e.parent with
        | none => rw [List.filterMap_cons_none (by simp [startedIn, hs, hp]), List.filter_cons_of_neg (by simp [hp]), ih]
        | some q =>
          rw [List.filterMap_cons_some (b := (q, e.node)) (by simp [startedIn, hs, hp])]
          cases hk : hasName c!"NELM" e.node && hasName c!"electronic convergence" q with
          | true =>
            rw [List.filter_cons_of_pos (by simpa [hs, hp] using hk), List.filter_cons_of_pos (by exact hk), List.map_cons, List.map_cons, ih]
          | false =>
            rw [List.filter_cons_of_neg (by simpa [hs, hp] using hk), List.filter_cons_of_neg (by simpa using hk), ih]
  rw [events_eq, List.filter_cons_of_neg (by simp [starts, hasName, hn]), List.filter_append, List.map_append, key, startedIn_eventsAll, pairs_eq]
  simp [ends]

/-- The parameters are those the regular parser finds. -/
theorem params_agree (root g : Node) (hg : (below root).filter (t c!"parameters").selects = [g]) (hp : ParametersOk g) (p : Option Node) (q : Params)
    (h : Res.foldlM' setParam {} (events p g) = .ok q) : fetchParams root = .ok q := by
  have path : ∀ ss, findAny root (t c!"parameters") ss = findRel g ss := fun ss => by unfold findAny findRel; rw [hg]
  have conv : ∀ e : Event, e.seen = e.node.text → asSeen e = e.node := fun e => asSeen_eq
  have e1 := fold_param (fun q => q.symprec) convertF c!"SYMPREC" (fun q e q' h => (keep_param h).1) (fun q e q' hs hn hv h => by
    unfold setParam at h; rw [hs, hn] at h; simp only [if_true] at h
    obtain ⟨x, hx, h⟩ := Res.bind_eq_ok.1 h; injection h with h; subst h; rw [conv e hv] at hx; exact hx) p g (hp.symprec.1 ▸ hp.symprec.2) {} q rfl h
  have e2 := fold_param (fun q => q.sigma) convertF c!"SIGMA" (fun q e q' h => (keep_param h).2.2.2.1) (fun q e q' hs hn hv h => by
    unfold setParam at h; rw [hs, hn] at h; simp at h
    obtain ⟨x, hx, h⟩ := Res.bind_eq_ok.1 h; injection h with h; subst h; rw [conv e hv] at hx; exact hx) p g (hp.sigma.1 ▸ hp.sigma.2) {} q rfl h
  have e3 := fold_param (fun q => q.ismear) convertI c!"ISMEAR" (fun q e q' h => (keep_param h).2.2.1) (fun q e q' hs hn hv h => by
    unfold setParam at h; rw [hs, hn] at h; simp at h
    obtain ⟨x, hx, h⟩ := Res.bind_eq_ok.1 h; injection h with h; subst h; rw [conv e hv] at hx; exact hx) p g (hp.ismear.1 ▸ hp.ismear.2) {} q rfl h
  have e4 := fold_param (fun q => q.ispin) convertI c!"ISPIN" (fun q e q' h => (keep_param h).2.1) (fun q e q' hs hn hv h => by
    unfold setParam at h; rw [hs, hn] at h; simp at h
    obtain ⟨x, hx, h⟩ := Res.bind_eq_ok.1 h; injection h with h; subst h; rw [conv e hv] at hx; exact hx) p g (hp.ispin.1 ▸ hp.ispin.2) {} q rfl h
  have e5 := fold_param (fun q => q.nbands) convertI c!"NBANDS" (fun q e q' h => (keep_param h).2.2.2.2.1) (fun q e q' hs hn hv h => by
    unfold setParam at h; rw [hs, hn] at h; simp at h
    obtain ⟨x, hx, h⟩ := Res.bind_eq_ok.1 h; injection h with h; subst h; rw [conv e hv] at hx; exact hx) p g (hp.nbands.1 ▸ hp.nbands.2) {} q rfl h
  have e6 := fold_param (fun q => q.nelect) convertF c!"NELECT" (fun q e q' h => (keep_param h).2.2.2.2.2.1) (fun q e q' hs hn hv h => by
    unfold setParam at h; rw [hs, hn] at h; simp at h
    obtain ⟨x, hx, h⟩ := Res.bind_eq_ok.1 h; injection h with h; subst h; rw [conv e hv] at hx; exact hx) p g (hp.nelect.1 ▸ hp.nelect.2) {} q rfl h
  have e7 := fold_param (fun q => q.system) textOf c!"SYSTEM" (fun q e q' h => (keep_param h).2.2.2.2.2.2.1) (fun q e q' hs hn hv h => by
    unfold setParam at h; rw [hs, hn] at h; simp at h
    subst h; unfold textOf; rw [← hv]) p g (hp.system.1 ▸ hp.system.2) {} q rfl h
  have e9 := fold_param (fun q => q.nsw) convertI c!"NSW" (fun q e q' h => (keep_param h).2.2.2.2.2.2.2.2) (fun q e q' hs hn hv h => by
    unfold setParam at h; rw [hs, hn] at h; simp at h
    obtain ⟨x, hx, h⟩ := Res.bind_eq_ok.1 h; injection h with h; subst h; rw [conv e hv] at hx; exact hx) p g (hp.nsw.1 ▸ hp.nsw.2) {} q rfl h
  have e8 : fetch convertI (findRel g [tn c!"separator" c!"electronic", tn c!"separator" c!"electronic convergence", tn c!"i" c!"NELM"]) = .ok q.nelm := by
    have hf := nelm_events p g hp.name
    rw [hp.nelm.1] at hf
    have hl := hp.nelm.2
    cases hv : findRel g [tn c!"separator" c!"electronic", tn c!"separator" c!"electronic convergence", tn c!"i" c!"NELM"] with
    | nil =>
      rw [hv] at hf
      have hf := List.map_eq_nil_iff.1 hf
      rw [foldlM'_keeps (π := fun q : Params => q.nelm) (fun e he s s' h1 => (keep_param h1).2.2.2.2.2.2.2.1 (by
        by_contra hc
        have : e ∈ (events p g).filter fun e => e.start && hasName c!"NELM" e.node && (e.parent.map (hasName c!"electronic convergence")).getD false :=
          List.mem_filter.2 ⟨he, Bool.eq_true_of_not_eq_false hc⟩
        rw [hf] at this; cases this)) h]
      rfl
    | cons v vs =>
      rw [hv] at hf hl
      cases vs with
      | cons _ _ => simp at hl
      | nil =>
        obtain ⟨e, h1, h2⟩ := map_eq_singleton hf
        obtain ⟨s1, s2, g1, _, g3, _⟩ := foldlM'_unique (π := fun q : Params => q.nelm) h1 (fun e he hk s s' hs => (keep_param hs).2.2.2.2.2.2.2.1 hk) h
        have hm : e ∈ (events p g).filter fun e => e.start && hasName c!"NELM" e.node && (e.parent.map (hasName c!"electronic convergence")).getD false :=
          h1 ▸ List.mem_singleton.2 rfl
        obtain ⟨hm1, hm2⟩ := List.mem_filter.1 hm
        simp only [Bool.and_eq_true, hasName, decide_eq_true_eq] at hm2
        obtain ⟨⟨hs, hn⟩, hpar⟩ := hm2
        cases hp' : e.parent with
        | none => rw [hp'] at hpar; cases hpar
        | some r =>
          rw [hp'] at hpar
          have hpar : name r = some c!"electronic convergence" := by simpa [hasName] using hpar
          unfold setParam at g1
          rw [hs, hn] at g1
          simp [parentIs, hp', hpar] at g1
          obtain ⟨x, hx, g1⟩ := Res.bind_eq_ok.1 g1
          injection g1 with g1
          subst g1
          rw [conv e (mem_events g p e hm1).2] at hx
          show convertI v = _
          rw [g3, ← h2]
          exact hx
  rw [hp.symprec.1] at e1
  rw [hp.sigma.1] at e2
  rw [hp.ismear.1] at e3
  rw [hp.ispin.1] at e4
  rw [hp.nbands.1] at e5
  rw [hp.nelect.1] at e6
  rw [hp.system.1] at e7
  rw [hp.nsw.1] at e9
  unfold fetchParams
  simp only [path, e1, e2, e3, e4, e5, e6, e7, e8, e9, Res.ok_bind]

end Verif.VasprunEvent
