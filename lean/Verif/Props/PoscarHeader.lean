import Verif.Props.PoscarRound
import Verif.Props.Utils
/-! # POSCAR header line under repeated writing and reading (C17) -/
set_option autoImplicit false
namespace Verif.Poscar
open Verif Verif.Utils Verif.Lattice

/-! ### specification -/

/-- The first line of a text. -/
def header (text : Str) : Option Str := (readlines text).head?

/-- `e'` is what remains of `e` after `n` times writing the object and reading the text back (as file, handler or string). -/
inductive Rewritten (prec : Nat) (conserve direct : Bool) : Nat → Entries → Entries → Prop
  | zero (e : Entries) : Rewritten prec conserve direct 0 e e
  | succ (n : Nat) (e e' e'' : Entries) (text : Str) (src : Sources) :
    Rewritten prec conserve direct n e e' → write prec conserve direct e' = .ok text →
    (src = { path := some (some text) } ∨ src = { handler := some text } ∨ src = { string := some text }) →
    init src = .ok e'' → Rewritten prec conserve direct (n + 1) e e''

/-! ### grouping again -/

theorem sortBy_sorted {α} (key : α → Nat) (l : List α) (h : l.Pairwise fun a b => key a ≤ key b) : sortBy key l = l := by
  induction l with
  | nil => rfl
  | cons x xs ih =>
    rw [List.pairwise_cons] at h
    show insertBy key x (sortBy key xs) = _
    rw [ih h.2]
    cases xs with
    | nil => rfl
    | cons y ys => rw [insertBy, if_pos (h.1 y (by simp))]

theorem filter_uniques_replicate (k : Str) (n : Nat) (rest : List Str) :
    (uniques (List.replicate n k ++ rest)).filter (· != k) = (uniques rest).filter (· != k) := by
  induction n with
  | zero => rfl
  | succ n ih =>
    rw [List.replicate_succ, List.cons_append, uniques, List.filter_cons_of_neg (by simp), List.filter_filter]
    simp only [Bool.and_self]
    exact ih

theorem uniques_expand {keys : List Str} {nums : List Nat} (hl : nums.length = keys.length) (hp : ∀ n ∈ nums, 0 < n) (hn : keys.Nodup) :
    uniques (expand keys nums) = keys := by
  induction keys generalizing nums with
  | nil => cases nums <;> simp [expand, uniques]
  | cons k ks ih =>
    cases nums with
    | nil => simp at hl
    | cons n ns =>
      rw [List.nodup_cons] at hn
      obtain ⟨m, rfl⟩ : ∃ m, n = m + 1 := ⟨n - 1, by have := hp n (by simp); omega⟩
      rw [expand_cons, List.replicate_succ, List.cons_append, uniques, filter_uniques_replicate,
        ih (by simpa using hl) (fun x hx => hp x (by simp [hx])) hn.2]
      congr 1
      rw [List.filter_eq_self]
      intro a ha
      simp only [bne_iff_ne, ne_eq]
      rintro rfl
      exact hn.1 ha

/-- Grouping depends on the names only. -/
theorem group_names {conserve : Bool} {a b : List Site} (h : a.map Site.getSpecie = b.map Site.getSpecie) :
    (group conserve a).species = (group conserve b).species ∧ (group conserve a).nums = (group conserve b).nums := by
  unfold group
  cases conserve <;> simp [h]

/-- Grouping the grouped sites changes neither the names nor the counts. -/
theorem group_again (conserve : Bool) {sites : List Site} (hd : ∀ s ∈ sites, s.direct = true) :
    (group conserve (group conserve sites).sites).species = (group conserve sites).species ∧
    (group conserve (group conserve sites).sites).nums = (group conserve sites).nums := by
  have hst : Stores [(c!"sites", .sites (sites.map .site))] sites := ⟨rfl, hd⟩
  cases conserve with
  | true =>
    obtain ⟨g, hg, h1, _⟩ := C13_conserve _ sites hst
    rw [sortAndGroup_stores hst true] at hg
    cases hg
    rw [h1]
    exact ⟨rfl, rfl⟩
  | false =>
    obtain ⟨g, hg, h1, h2, h3, h4, h5, h6, h7, h8⟩ := C12_grouping _ sites hst
    rw [sortAndGroup_stores hst false] at hg
    cases hg
    have hcount : ∀ k, ((group false sites).sites.map Site.getSpecie).count k = (sites.map Site.getSpecie).count k :=
      fun k => (h1.map Site.getSpecie).count_eq k
    have hu : uniques ((group false sites).sites.map Site.getSpecie) = (group false sites).species := by
      rw [h4]
      refine uniques_expand h3 ?_ h2
      intro n hn
      rw [h5] at hn
      obtain ⟨k, hk, rfl⟩ := List.mem_map.1 hn
      exact h6 k hk
    have hkeys : (group false (group false sites).sites).species = (group false sites).species := by
      have hsp : ∀ l, (group false l).species = sortBy (fun k => (l.map Site.getSpecie).count k) (uniques (l.map Site.getSpecie)) :=
        fun _ => rfl
      rw [hsp (group false sites).sites, hu]
      apply sortBy_sorted
      refine h7.imp ?_
      rintro a b (h | h)
      · rw [hcount, hcount]; omega
      · rw [hcount, hcount]; omega
    refine ⟨hkeys, ?_⟩
    rw [h5]
    have : (group false (group false sites).sites).nums =
        (group false (group false sites).sites).species.map fun k => ((group false sites).sites.map Site.getSpecie).count k := rfl
    rw [this, hkeys]
    apply List.map_congr_left
    intro k _
    exact hcount k

/-! ### the comment -/

theorem strip_infix {a s : Str} (ha : Stripped a) (hne : a ≠ []) (h : a <:+: s) : a <:+: strip s := by
  obtain ⟨p, q, rfl⟩ := h
  have h1 : lstrip (p ++ a ++ q) = lstrip p ++ (a ++ q) := by
    rw [List.append_assoc]
    unfold lstrip
    induction p with
    | nil =>
      obtain ⟨x, xs, rfl⟩ := List.exists_cons_of_ne_nil hne
      have := ha.1 x rfl
      simp [List.dropWhile_cons, this]
    | cons x xs ih =>
      rw [List.cons_append, List.dropWhile_cons, List.dropWhile_cons]
      split
      · exact ih
      · rfl
  have h2 : rstrip (lstrip p ++ (a ++ q)) = lstrip p ++ a ++ rstrip q := by
    unfold rstrip
    simp only [List.reverse_append, List.append_assoc]
    have hlast : ∀ x xs, a.reverse = x :: xs → isSpace x = false := by
      intro x xs hx
      apply ha.2
      rw [List.getLast?_eq_head?_reverse, hx]; rfl
    generalize q.reverse = r
    induction r with
    | nil =>
      obtain ⟨x, xs, hx⟩ := List.exists_cons_of_ne_nil (show a.reverse ≠ [] by simpa using hne)
      simp only [List.nil_append, List.dropWhile_nil, List.reverse_nil, List.append_nil]
      rw [hx, List.cons_append, List.dropWhile_cons, hlast x xs hx, if_neg (by decide), ← List.cons_append, ← hx,
        ← List.reverse_append, List.reverse_reverse]
    | cons x xs ih =>
      rw [List.cons_append, List.dropWhile_cons, List.dropWhile_cons]
      split
      · exact ih
      · simp
  unfold strip
  rw [h1, h2]
  exact ⟨lstrip p, rstrip q, rfl⟩

theorem compound_ne (species : List Str) (nums : List Nat) : compound species nums ≠ [] := by
  unfold compound; simp

theorem compound_stripped (species : List Str) (nums : List Nat) : Stripped (compound species nums) := by
  unfold compound
  constructor
  · intro c hc; simp at hc; subst hc; decide
  · intro c hc
    rw [List.getLast?_append] at hc
    simp at hc; subst hc; decide

theorem digit_no_hash (n : Nat) : '#' ∉ natStr n := by
  have := intStr_numChars (n : Int)
  unfold intStr at this
  rw [if_neg (by omega)] at this
  intro hm
  have h2 := this _ hm
  revert h2; decide

theorem compound_no_hash {species : List Str} {nums : List Nat} (h : ∀ k ∈ species, '#' ∉ capitalize k) : '#' ∉ compound species nums := by
  unfold compound
  simp only [List.mem_append, List.mem_flatMap, not_or, not_exists, not_and]
  refine ⟨⟨by decide, ?_⟩, by decide⟩
  rintro ⟨k, n⟩ hk
  refine ⟨h k (List.of_mem_zip hk).1, ?_⟩
  split
  · simp
  · exact digit_no_hash n

/-- The part of the header behind the leading `# `. -/
def body (comp : Str) : Option Str → Str
  | some s => if contains comp s then s else comp ++ c!" Old comment: " ++ s
  | Option.none => comp

theorem headline_body (comp : Str) (cm : Option Str) : headline comp (commentVal cm) = c!"# " ++ body comp cm := by
  cases cm with
  | none => rfl
  | some s =>
    simp only [commentVal, headline, body]
    split <;> simp

theorem body_contains (comp : Str) (cm : Option Str) : comp <:+: body comp cm := by
  cases cm with
  | none => exact List.infix_refl _
  | some s =>
    simp only [body]
    split
    · rename_i h; exact (contains_iff _ _).1 h
    · rw [List.append_assoc]; exact ⟨[], _, rfl⟩

theorem readBack_hash (x : Str) : readBack (c!"# " ++ x) = strip (x.filter (· != '#')) := by
  unfold readBack
  have : (c!"# " ++ x).filter (· != '#') = [' '] ++ x.filter (· != '#') := rfl
  rw [this]
  unfold strip
  rw [lstrip_spaces_append _ _ (by decide)]

theorem filter_no_hash {x : Str} (h : '#' ∉ x) : x.filter (· != '#') = x := by
  rw [List.filter_eq_self]
  intro c hc
  simp only [bne_iff_ne, ne_eq]
  rintro rfl
  exact h hc

/-- The comment read back contains the compound, has no `#` and is stripped. -/
theorem readBack_spec {comp : Str} (hs : Stripped comp) (hne : comp ≠ []) (hh : '#' ∉ comp) (cm : Option Str) :
    comp <:+: readBack (headline comp (commentVal cm)) ∧ '#' ∉ readBack (headline comp (commentVal cm)) ∧
      Stripped (readBack (headline comp (commentVal cm))) := by
  rw [headline_body, readBack_hash]
  refine ⟨strip_infix hs hne ?_, ?_, strip_stripped _⟩
  · have := (body_contains comp cm).filter (· != '#')
    rwa [filter_no_hash hh] at this
  · intro hm
    have := mem_of_mem_strip hm
    simp at this

/-- Once read back, the comment does not change any more. -/
theorem headline_fix {comp s : Str} (hc : comp <:+: s) (hh : '#' ∉ s) (hs : Stripped s) :
    headline comp (commentVal (some s)) = c!"# " ++ s ∧ readBack (headline comp (commentVal (some s))) = s := by
  have h1 : headline comp (commentVal (some s)) = c!"# " ++ s := by
    simp only [commentVal, headline]
    rw [if_pos ((contains_iff _ _).2 hc)]
  refine ⟨h1, ?_⟩
  rw [h1, readBack_hash, filter_no_hash hh, strip_eq_self hs]

/-! ### iteration -/

theorem roundV_idem (prec : Nat) (v : Vec) : roundV prec (roundV prec v) = roundV prec v := by
  simp [roundV, V3.map, roundDec_idem]

theorem roundM_idem (prec : Nat) (c : Cell) : roundM prec (roundM prec c) = roundM prec c := by
  simp [roundM, roundV_idem]

theorem backSites_names (prec : Nat) (direct : Bool) (c : Cell) (sites : List Site) :
    (backSites prec direct c sites).map Site.getSpecie = sites.map Site.getSpecie := by
  unfold backSites
  rw [List.map_map]
  apply List.map_congr_left
  intro s _
  show capitalize (lower s.getSpecie) = s.getSpecie
  rw [capitalize_capitalize_lower, capitalize_getSpecie]

/-- What every object read back has in common. -/
structure Settled (prec : Nat) (conserve direct : Bool) (species : List Str) (nums : List Nat) (cm : Option Str) (e : Entries) : Prop where
  holds : ∃ c sites, Holds e cm c sites ∧ Printable cm sites ∧ CellOk prec direct c ∧
    (group conserve sites).species = species ∧ (group conserve sites).nums = nums ∧ (∀ s ∈ sites, '#' ∉ s.getSpecie) ∧
    AllOrNone Site.velocities sites ∧ AllOrNone Site.predictors sites

theorem allOrNone_perm {f : Site → Option Vec} {a b : List Site} (h : a.Perm b) (hb : AllOrNone f b) : AllOrNone f a := by
  rcases hb with hb | hb
  · exact .inl fun s hs => hb s (h.mem_iff.1 hs)
  · exact .inr fun s hs => hb s (h.mem_iff.1 hs)

theorem settled_header {prec : Nat} {conserve direct : Bool} {species : List Str} {nums : List Nat} {cm : Option Str} {e : Entries}
    (h : Settled prec conserve direct species nums cm e) {text : Str} (hw : write prec conserve direct e = .ok text) :
    header text = some (headline (compound species nums) (commentVal cm) ++ ['\n']) := by
  obtain ⟨c, sites, hh, hp, hc, rfl, rfl, _⟩ := h.holds
  obtain ⟨_, ls, hls, rfl, hhead⟩ := write_read hh hp hc hw
  unfold header
  rw [(Kpoints.read_unlines ls hls).1]
  rw [List.head?_map, hhead]; rfl

theorem settled_write {prec : Nat} {conserve direct : Bool} {species : List Str} {nums : List Nat} {cm : Option Str} {e : Entries}
    (h : Settled prec conserve direct species nums cm e) : ∃ text, write prec conserve direct e = .ok text := by
  obtain ⟨c, sites, hh, hp, hc, _, _, _, hv, hpd⟩ := h.holds
  exact C15_writes prec conserve direct e cm c sites hh hv hpd

theorem settled_step {prec : Nat} {conserve direct : Bool} {species : List Str} {nums : List Nat} {cm : Option Str} {e e' : Entries}
    (h : Settled prec conserve direct species nums cm e) {text : Str} {src : Sources} (hw : write prec conserve direct e = .ok text)
    (hsrc : src = { path := some (some text) } ∨ src = { handler := some text } ∨ src = { string := some text })
    (hi : init src = .ok e') :
    Settled prec conserve direct species nums (some (readBack (headline (compound species nums) (commentVal cm)))) e' := by
  obtain ⟨c, sites, hh, hp, hc, rfl, rfl, hno, hv, hpd⟩ := h.holds
  obtain ⟨hr, _⟩ := write_read hh hp hc hw
  obtain ⟨hg, hperm⟩ := wellGrouped_group hh.direct conserve
  have he' : e' = Parsed.toEntries ⟨readBack (headline (compound (group conserve sites).species (group conserve sites).nums)
      (commentVal cm)), some (roundM prec c), backSites prec direct c (group conserve sites).sites⟩ := by
    rcases hsrc with rfl | rfl | rfl
    · rw [hr.file] at hi; cases hi; rfl
    · rw [hr.handler] at hi; cases hi; rfl
    · rw [hr.string] at hi; cases hi; rfl
  have hbd : ∀ s ∈ backSites prec direct c (group conserve sites).sites, s.direct = true := by
    intro s hs
    obtain ⟨t, _, rfl⟩ := List.mem_map.1 hs
    rfl
  have hnm := backSites_names prec direct c (group conserve sites).sites
  have hnames : ∀ s ∈ backSites prec direct c (group conserve sites).sites, ∃ t ∈ sites, t.getSpecie = s.getSpecie := by
    intro s hs
    have : s.getSpecie ∈ (backSites prec direct c (group conserve sites).sites).map Site.getSpecie := List.mem_map_of_mem hs
    rw [hnm] at this
    obtain ⟨t, ht, hts⟩ := List.mem_map.1 this
    exact ⟨t, hperm.mem_iff.1 ht, hts⟩
  have hgn := group_names (conserve := conserve) hnm
  have hga := group_again conserve hh.direct
  rw [he']
  refine ⟨roundM prec c, _, holds_toEntries _ _ rfl hbd, ⟨?_, ?_⟩, ?_, hgn.1.trans hga.1, hgn.2.trans hga.2, ?_, ?_, ?_⟩
  · intro s hs
    cases hs
    have hsp : ∀ k ∈ (group conserve sites).species, Token (capitalize k) := by
      intro k hk
      obtain ⟨s, hs, rfl⟩ := species_mem hg hk
      rw [capitalize_getSpecie]
      exact (hp.names s (hperm.mem_iff.1 hs)).1
    have hb : Free isLineBreak (headline (compound (group conserve sites).species (group conserve sites).nums) (commentVal cm)) :=
      headline_noBreak hsp hp.comment
    intro ch hch
    unfold readBack at hch
    exact hb ch (List.mem_filter.1 (mem_of_mem_strip hch)).1
  · intro s hs
    obtain ⟨t, ht, hts⟩ := hnames s hs
    rw [← hts]
    exact hp.names t ht
  · intro hdir
    rw [roundM_idem]
    exact hc hdir
  · intro s hs
    obtain ⟨t, ht, hts⟩ := hnames s hs
    rw [← hts]
    exact hno t ht
  · have := allOrNone_perm hperm hv
    rcases this with h1 | h1
    · left
      intro s hs
      obtain ⟨t, ht, rfl⟩ := List.mem_map.1 hs
      have := h1 t ht
      show t.velocities.map _ ≠ _
      cases hvv : t.velocities with
      | none => exact absurd hvv this
      | some v => simp
    · right
      intro s hs
      obtain ⟨t, ht, rfl⟩ := List.mem_map.1 hs
      have := h1 t ht
      show t.velocities.map _ = _
      rw [this]; rfl
  · have := allOrNone_perm hperm hpd
    rcases this with h1 | h1
    · left
      intro s hs
      obtain ⟨t, ht, rfl⟩ := List.mem_map.1 hs
      have := h1 t ht
      show t.predictors.map _ ≠ _
      cases hvv : t.predictors with
      | none => exact absurd hvv this
      | some v => simp
    · right
      intro s hs
      obtain ⟨t, ht, rfl⟩ := List.mem_map.1 hs
      have := h1 t ht
      show t.predictors.map _ = _
      rw [this]; rfl

/-- What C17 ranges over. -/
structure Given (prec : Nat) (direct : Bool) (e : Entries) (cm : Option Str) (c : Cell) (sites : List Site) : Prop where
  holds : Holds e cm c sites
  printable : Printable cm sites
  cellOk : CellOk prec direct c
  noHash : ∀ s ∈ sites, '#' ∉ s.getSpecie
  velocities : AllOrNone Site.velocities sites
  predictors : AllOrNone Site.predictors sites

theorem Given.settled {prec : Nat} {direct : Bool} {e : Entries} {cm : Option Str} {c : Cell} {sites : List Site}
    (h : Given prec direct e cm c sites) (conserve : Bool) :
    Settled prec conserve direct (group conserve sites).species (group conserve sites).nums cm e :=
  ⟨c, sites, h.holds, h.printable, h.cellOk, rfl, rfl, h.noHash, h.velocities, h.predictors⟩

theorem Given.compound_ok {prec : Nat} {direct : Bool} {e : Entries} {cm : Option Str} {c : Cell} {sites : List Site}
    (h : Given prec direct e cm c sites) (conserve : Bool) :
    '#' ∉ compound (group conserve sites).species (group conserve sites).nums := by
  obtain ⟨hg, hperm⟩ := wellGrouped_group h.holds.direct conserve
  apply compound_no_hash
  intro k hk
  obtain ⟨s, hs, rfl⟩ := species_mem hg hk
  rw [capitalize_getSpecie]
  exact h.noHash s (hperm.mem_iff.1 hs)

/-- The comment after `n` cycles. -/
def commentAfter (comp : Str) (cm : Option Str) : Nat → Option Str
  | 0 => cm
  | n + 1 => some (readBack (headline comp (commentVal (commentAfter comp cm n))))

theorem settled_rewritten {prec : Nat} {conserve direct : Bool} {species : List Str} {nums : List Nat} {cm : Option Str} {n : Nat} {e e' : Entries}
    (hr : Rewritten prec conserve direct n e e') (h : Settled prec conserve direct species nums cm e) :
    Settled prec conserve direct species nums (commentAfter (compound species nums) cm n) e' := by
  induction hr with
  | zero => exact h
  | succ n e e' e'' text src _ hw hsrc hi ih => exact settled_step (ih h) hw hsrc hi

theorem commentAfter_fix {comp : Str} (hs : Stripped comp) (hne : comp ≠ []) (hh : '#' ∉ comp) (cm : Option Str) (n : Nat) :
    commentAfter comp cm (n + 1) = some (readBack (headline comp (commentVal cm))) := by
  induction n with
  | zero => rfl
  | succ n ih =>
    rw [commentAfter, ih]
    obtain ⟨h1, h2, h3⟩ := readBack_spec hs hne hh cm
    rw [(headline_fix h1 h2 h3).2]

/-- The cycle can be run any number of times. -/
theorem C17_runs (prec : Nat) (conserve direct : Bool) (e : Entries) (cm : Option Str) (c : Cell) (sites : List Site)
    (h : Given prec direct e cm c sites) (n : Nat) :
    ∃ e' text, Rewritten prec conserve direct n e e' ∧ write prec conserve direct e' = .ok text := by
  induction n with
  | zero =>
    obtain ⟨t, ht⟩ := settled_write (h.settled conserve)
    exact ⟨e, t, .zero e, ht⟩
  | succ n ih =>
    obtain ⟨e', t, hr, hw⟩ := ih
    have hs := settled_rewritten hr (h.settled conserve)
    obtain ⟨c', sites', hh, hp, hc, _⟩ := hs.holds
    obtain ⟨hra, _⟩ := write_read hh hp hc hw
    have hr' := Rewritten.succ n e e' _ t _ hr hw (.inl rfl) hra.file
    obtain ⟨t', ht'⟩ := settled_write (settled_rewritten hr' (h.settled conserve))
    exact ⟨_, t', hr', ht'⟩

/-- C17, proved part 1: from the second write on the header never changes again (so `Old comment:` is added at most once), for every
comment and any number of cycles. Species names must not contain `#`. Missing: the first write (`C17_violation_empty`, `C17_violation_hash`). -/
theorem C17_later_partial (prec : Nat) (conserve direct : Bool) (e : Entries) (cm : Option Str) (c : Cell) (sites : List Site)
    (h : Given prec direct e cm c sites) (n : Nat) (e1 en : Entries) (t1 tn : Str) (h1 : Rewritten prec conserve direct 1 e e1)
    (hn : Rewritten prec conserve direct (n + 1) e en) (w1 : write prec conserve direct e1 = .ok t1)
    (wn : write prec conserve direct en = .ok tn) : header tn = header t1 := by
  rw [settled_header (settled_rewritten h1 (h.settled conserve)) w1, settled_header (settled_rewritten hn (h.settled conserve)) wn,
    commentAfter_fix (compound_stripped _ _) (compound_ne _ _) (h.compound_ok conserve),
    commentAfter_fix (compound_stripped _ _) (compound_ne _ _) (h.compound_ok conserve)]

/-- C17, proved part 2: with no comment, or a non-empty comment without `#` and without surrounding white space, already the first
header is final. Missing: other comments (`C17_violation_empty`, `C17_violation_hash`). -/
theorem C17_first_partial (prec : Nat) (conserve direct : Bool) (e : Entries) (cm : Option Str) (c : Cell) (sites : List Site)
    (h : Given prec direct e cm c sites) (hcm : ∀ s, cm = some s → '#' ∉ s ∧ Stripped s ∧ s ≠ []) (n : Nat) (en : Entries) (t0 tn : Str)
    (hn : Rewritten prec conserve direct n e en) (w0 : write prec conserve direct e = .ok t0) (wn : write prec conserve direct en = .ok tn) :
    header tn = header t0 := by
  rw [settled_header (h.settled conserve) w0, settled_header (settled_rewritten hn (h.settled conserve)) wn]
  have hs := compound_stripped (group conserve sites).species (group conserve sites).nums
  have hne := compound_ne (group conserve sites).species (group conserve sites).nums
  have hh := h.compound_ok conserve
  generalize compound (group conserve sites).species (group conserve sites).nums = comp at hs hne hh
  cases n with
  | zero => rfl
  | succ n =>
    rw [commentAfter_fix hs hne hh]
    obtain ⟨h1, h2, h3⟩ := readBack_spec hs hne hh cm
    rw [(headline_fix h1 h2 h3).1, headline_body, readBack_hash]
    have hb : '#' ∉ body comp cm ∧ Stripped (body comp cm) := by
      cases cm with
      | none => exact ⟨hh, hs⟩
      | some s =>
        obtain ⟨g1, g2, g3⟩ := hcm s rfl
        simp only [body]
        split
        · exact ⟨g1, g2⟩
        · refine ⟨?_, ?_, ?_⟩
          · simp only [List.mem_append, not_or]
            exact ⟨⟨hh, by decide⟩, g1⟩
          · intro x hx
            apply hs.1 x
            obtain ⟨y, ys, rfl⟩ := List.exists_cons_of_ne_nil hne
            simpa using hx
          · intro x hx
            apply g2.2 x
            rw [List.getLast?_append] at hx
            obtain ⟨z, hz⟩ := Option.isSome_iff_exists.1 (List.getLast?_isSome.2 g3)
            rw [hz] at hx ⊢
            simpa using hx
    rw [filter_no_hash hb.1, strip_eq_self hb.2]

/-- One cycle through a string, giving the first lines of both texts. -/
def twoHeaders (e : Entries) : Res (Option Str × Option Str) :=
  write 2 false true e >>= fun t0 => init { string := some t0 } >>= fun e1 => write 2 false true e1 >>= fun t1 => .ok (header t0, header t1)

/-- One hydrogen atom. -/
def oneSite (comment : Str) : Entries :=
  [(c!"comment", .str comment), (c!"unitcell", .cell (some ⟨⟨1, 0, 0⟩, ⟨0, 1, 0⟩, ⟨0, 0, 1⟩⟩)), (c!"sites", .sites [.site (siteAt c!"H" 0)])]

/-- C17 is false for the empty comment: the trailing blank of the first header is lost in the second. -/
theorem C17_violation_empty : twoHeaders (oneSite []) =
    .ok (some c!"# Compound: H. Old comment: \n", some c!"# Compound: H. Old comment:\n") := by decide +kernel

/-- C17 is false for a comment with `#`. -/
theorem C17_violation_hash : twoHeaders (oneSite c!"run #2") =
    .ok (some c!"# Compound: H. Old comment: run #2\n", some c!"# Compound: H. Old comment: run 2\n") := by decide +kernel

example : twoHeaders (oneSite c!"run 2") =
    .ok (some c!"# Compound: H. Old comment: run 2\n", some c!"# Compound: H. Old comment: run 2\n") := by decide +kernel

example : Given 3 false fullEntries (some c!"Rust") ⟨⟨2, 0, 1/3⟩, ⟨0, 3, 0⟩, ⟨0, 1, 4⟩⟩ fullSites := by
  refine ⟨⟨rfl, rfl, rfl, by decide +kernel⟩, ⟨?_, ?_⟩, ?_, by decide +kernel, .inl (by decide +kernel), .inl (by decide +kernel)⟩
  · intro s hs; cases hs; unfold Free; decide
  · intro s hs
    unfold Token Free
    revert s; decide +kernel
  · intro _; rw [det_toMatrix]; decide +kernel

end Verif.Poscar
