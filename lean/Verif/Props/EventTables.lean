import Verif.Props.EventKpoints
/-! # The event driven parser on tables ordered by spin -/
set_option autoImplicit false
namespace Verif.VasprunEvent
open Verif Verif.Utils Verif.Xml Verif.Vasprun

theorem follow_linear (ss : List Step) (ns : List Node) : follow ss ns = ns.flatMap fun n => findRel n ss := by
  induction ss generalizing ns with
  | nil =>
    rw [follow]
    unfold findRel
    simp [follow]
  | cons s ss ih =>
    rw [follow, ih, List.flatMap_assoc]
    congr 1
    funext n
    unfold findRel
    rw [follow, List.flatMap_singleton, ih]
    rfl

theorem findRel_cons (n : Node) (s : Step) (ss : List Step) : findRel n (s :: ss) = (n.children.filter s.selects).flatMap fun c => findRel c ss := by
  unfold findRel
  rw [follow, List.flatMap_singleton, follow_linear]
  rfl

theorem findRel_nil (n : Node) : findRel n [] = [n] := rfl

theorem flatMap_filter {α β : Type} (k : α → Bool) (f : α → List β) (l : List α) : (l.filter k).flatMap f = l.flatMap fun a => if k a then f a else [] := by
  induction l with
  | nil => rfl
  | cons a as ih =>
    rw [List.flatMap_cons]
    cases h : k a with
    | true => rw [List.filter_cons_of_pos h, List.flatMap_cons, ih]; rfl
    | false => rw [List.filter_cons_of_neg (by simp [h]), ih]; rfl

theorem findRel_cons' (n : Node) (s : Step) (ss : List Step) : findRel n (s :: ss) = n.children.flatMap fun c => if s.selects c then findRel c ss else [] := by
  rw [findRel_cons, flatMap_filter]

theorem selects_tc {tag v : Str} {n : Node} : (tc tag v).selects n = true ↔ n.tag = tag ∧ comment n = some v := by
  unfold Step.selects tc comment
  constructor
  · intro h
    obtain ⟨h1, h2⟩ := Bool.and_eq_true_iff.1 h
    exact ⟨of_decide_eq_true h1, of_decide_eq_true h2⟩
  · rintro ⟨h1, h2⟩
    exact Bool.and_eq_true_iff.2 ⟨decide_eq_true h1, decide_eq_true h2⟩

section
variable (s1 s2 : Str)

/-- Not the beginning of a spin channel. -/
def NoSpin (n : Node) : Prop := comment n ≠ some s1 ∧ comment n ≠ some s2

/-- Rows below `k` levels of sets. -/
def RowsOk : Nat → Node → Prop
  | 0, n => ∀ m ∈ n.children, m.tag = c!"r" ∧ m.children = []
  | k + 1, n => ∀ m ∈ n.children, m.tag = c!"set" ∧ NoSpin s1 s2 m ∧ RowsOk k m

/-- Spin channels below `w` levels of sets, each with rows below `k` levels of sets. -/
def SpinsOk (k : Nat) : Nat → Node → Prop
  | 0, n => ∀ m ∈ n.children, m.tag = c!"set" ∧ (comment m = some s1 ∨ comment m = some s2) ∧ RowsOk s1 s2 k m
  | w + 1, n => ∀ m ∈ n.children, m.tag = c!"set" ∧ NoSpin s1 s2 m ∧ SpinsOk k w m

/-- The description of an array: no element that means anything elsewhere. -/
def Description (n : Node) : Prop := ∀ m ∈ n :: below n, m.tag = c!"dimension" ∨ m.tag = c!"field"

/-- An array: descriptions and sets. -/
def ArrayOk (w k : Nat) (n : Node) : Prop :=
  n.tag = c!"array" ∧ name n ≠ some c!"atoms" ∧ name n ≠ some c!"born_charges" ∧
  ∀ m ∈ n.children, (m.tag = c!"set" ∧ NoSpin s1 s2 m ∧ SpinsOk s1 s2 k w m) ∨ Description m

/-- An element with nothing but arrays in it. -/
def TableOk (w k : Nat) (n : Node) : Prop := ∀ a ∈ n.children, ArrayOk s1 s2 w k a

end

/-- The path of the rows. -/
def rowPath (k : Nat) : List Step := List.replicate k (t c!"set") ++ [t c!"r"]
/-- The path of the rows of a spin channel. -/
def spinPath (w k : Nat) (s : Str) : List Step := List.replicate w (t c!"set") ++ tc c!"set" s :: rowPath k

/-- A mode in which rows are collected by spin. -/
structure SpinMode (kb : Bool) (s1 s2 : Str) (M : Bool → Bool → List Node → List Node → St) : Prop where
  set : ∀ e x y d1 d2, e.node.tag = c!"set" → step kb e (M x y d1 d2) = .ok (M (switch x (opensC e c!"set" s1) (closesC e c!"set" s1))
    (switch y (opensC e c!"set" s2) (closesC e c!"set" s2)) d1 d2)
  row : ∀ e x y d1 d2, e.node.tag = c!"r" → step kb e (M x y d1 d2) =
    .ok (M x y (if x && e.start then d1 ++ [e.node] else d1) (if y && e.start then d2 ++ [e.node] else d2))
  other : ∀ e x y d1 d2, e.node.tag = c!"dimension" ∨ e.node.tag = c!"field" → step kb e (M x y d1 d2) = .ok (M x y d1 d2)

theorem flatMap_none {α β : Type} (l : List α) : (l.flatMap fun _ => ([] : List β)) = [] := by
  induction l with
  | nil => rfl
  | cons a as ih => rw [List.flatMap_cons, ih]; rfl

theorem run_collect {kb : Bool} {M : List Node → List Node → St} {p : Option Node} {cs : List Node} {f g : Node → List Node}
    (h : ∀ c ∈ cs, ∀ d1 d2, run kb (events p c) (M d1 d2) = .ok (M (d1 ++ f c) (d2 ++ g c))) (d1 d2 : List Node) :
    run kb (eventsAll p cs) (M d1 d2) = .ok (M (d1 ++ cs.flatMap f) (d2 ++ cs.flatMap g)) := by
  induction cs generalizing d1 d2 with
  | nil => rw [eventsAll_nil]; simp [run_nil]
  | cons c cs ih =>
    rw [eventsAll_cons, run_append, h c (List.mem_cons_self ..), Res.ok_bind, ih (fun c hc => h c (List.mem_cons_of_mem _ hc)), List.flatMap_cons,
      List.flatMap_cons, List.append_assoc, List.append_assoc]

section
variable {kb : Bool} {s1 s2 : Str} {M : Bool → Bool → List Node → List Node → St}

theorem noSpin_step (hM : SpinMode kb s1 s2 M) {e : Event} (ht : e.node.tag = c!"set") (hn : NoSpin s1 s2 e.node) (x y : Bool) (d1 d2 : List Node) :
    step kb e (M x y d1 d2) = .ok (M x y d1 d2) := by
  rw [hM.set e x y d1 d2 ht]
  have h1 : opensC e c!"set" s1 = false := by unfold opensC; simp [hn.1]
  have h2 : closesC e c!"set" s1 = false := by unfold closesC; simp [hn.1]
  have h3 : opensC e c!"set" s2 = false := by unfold opensC; simp [hn.2]
  have h4 : closesC e c!"set" s2 = false := by unfold closesC; simp [hn.2]
  rw [h1, h2, h3, h4]; rfl

theorem run_rowsOk (hM : SpinMode kb s1 s2 M) : ∀ (k : Nat) (n : Node), RowsOk s1 s2 k n → ∀ (p : Option Node) (x y : Bool) (d1 d2 : List Node),
    run kb (eventsAll p n.children) (M x y d1 d2) =
    .ok (M x y (d1 ++ if x then findRel n (rowPath k) else []) (d2 ++ if y then findRel n (rowPath k) else []))
  | 0, n, h, p, x, y, d1, d2 => by
    have e1 : findRel n (rowPath 0) = n.children.flatMap fun m => [m] := by
      show findRel n [t c!"r"] = _
      rw [findRel_cons']
      refine List.flatMap_congr fun m hm => ?_
      rw [if_pos (selects_t.2 (h m hm).1), findRel_nil]
    rw [run_collect (M := M x y) (f := fun m => if x then [m] else []) (g := fun m => if y then [m] else []) (fun m hm d1 d2 => ?_), e1]
    · cases x <;> cases y <;> simp [flatMap_none]
    · obtain ⟨h1, h2⟩ := h m hm
      rw [run_node, hM.row (starts p m) x y d1 d2 h1, Res.ok_bind, h2, eventsAll_nil, run_nil, Res.ok_bind, hM.row (ends p m) _ _ _ _ h1]
      cases x <;> cases y <;> simp [starts, ends]
  | k + 1, n, h, p, x, y, d1, d2 => by
    have e1 : findRel n (rowPath (k + 1)) = n.children.flatMap fun m => findRel m (rowPath k) := by
      show findRel n (t c!"set" :: rowPath k) = _
      rw [findRel_cons']
      refine List.flatMap_congr fun m hm => ?_
      rw [if_pos (selects_t.2 (h m hm).1)]
    rw [run_collect (M := M x y) (f := fun m => if x then findRel m (rowPath k) else []) (g := fun m => if y then findRel m (rowPath k) else [])
      (fun m hm d1 d2 => ?_), e1]
    · cases x <;> cases y <;> simp [flatMap_none]
    · obtain ⟨h1, h2, h3⟩ := h m hm
      rw [run_node, noSpin_step hM (e := starts p m) h1 h2, Res.ok_bind, run_rowsOk hM k m h3, Res.ok_bind, noSpin_step hM (e := ends p m) h1 h2]

theorem run_spinsOk (hM : SpinMode kb s1 s2 M) (h12 : s1 ≠ s2) (k : Nat) : ∀ (w : Nat) (n : Node), SpinsOk s1 s2 k w n →
    ∀ (p : Option Node) (d1 d2 : List Node), run kb (eventsAll p n.children) (M false false d1 d2) =
    .ok (M false false (d1 ++ findRel n (spinPath w k s1)) (d2 ++ findRel n (spinPath w k s2)))
  | 0, n, h, p, d1, d2 => by
    have e1 : ∀ s, findRel n (spinPath 0 k s) = n.children.flatMap fun m => if comment m = some s then findRel m (rowPath k) else [] := fun s => by
      show findRel n (tc c!"set" s :: rowPath k) = _
      rw [findRel_cons']
      refine List.flatMap_congr fun m hm => ?_
      by_cases hc : comment m = some s
      · rw [if_pos hc, if_pos (selects_tc.2 ⟨(h m hm).1, hc⟩)]
      · rw [if_neg hc, if_neg (fun hs => hc (selects_tc.1 hs).2)]
    rw [e1, e1, run_collect (M := M false false) (fun m hm d1 d2 => ?_)]
    obtain ⟨h1, h2, h3⟩ := h m hm
    rw [run_node, hM.set (starts p m) _ _ _ _ h1, Res.ok_bind]
    rcases h2 with h2 | h2
    · have h4 : comment m ≠ some s2 := fun hc => h12 (by rw [h2] at hc; injection hc)
      have g1 : switch false (opensC (starts p m) c!"set" s1) (closesC (starts p m) c!"set" s1) = true := by
        simp [switch, opensC, opens, closesC, closes, starts, h1, h2]
      have g2 : switch false (opensC (starts p m) c!"set" s2) (closesC (starts p m) c!"set" s2) = false := by
        simp [switch, opensC, closesC, starts, h4]
      rw [g1, g2, run_rowsOk hM k m h3, Res.ok_bind, hM.set (ends p m) _ _ _ _ h1]
      have g3 : switch true (opensC (ends p m) c!"set" s1) (closesC (ends p m) c!"set" s1) = false := by
        simp [switch, opensC, opens, closesC, closes, ends, h1, h2]
      have g4 : switch false (opensC (ends p m) c!"set" s2) (closesC (ends p m) c!"set" s2) = false := by
        simp [switch, opensC, closesC, ends, h4]
      rw [g3, g4, if_pos h2, if_neg h4]
      rfl
    · have h4 : comment m ≠ some s1 := fun hc => h12 (by rw [h2] at hc; injection hc with hc; exact hc.symm)
      have g1 : switch false (opensC (starts p m) c!"set" s2) (closesC (starts p m) c!"set" s2) = true := by
        simp [switch, opensC, opens, closesC, closes, starts, h1, h2]
      have g2 : switch false (opensC (starts p m) c!"set" s1) (closesC (starts p m) c!"set" s1) = false := by
        simp [switch, opensC, closesC, starts, h4]
      rw [g1, g2, run_rowsOk hM k m h3, Res.ok_bind, hM.set (ends p m) _ _ _ _ h1]
      have g3 : switch true (opensC (ends p m) c!"set" s2) (closesC (ends p m) c!"set" s2) = false := by
        simp [switch, opensC, opens, closesC, closes, ends, h1, h2]
      have g4 : switch false (opensC (ends p m) c!"set" s1) (closesC (ends p m) c!"set" s1) = false := by
        simp [switch, opensC, closesC, ends, h4]
      rw [g3, g4, if_pos h2, if_neg h4]
      rfl
  | w + 1, n, h, p, d1, d2 => by
    have e1 : ∀ s, findRel n (spinPath (w + 1) k s) = n.children.flatMap fun m => findRel m (spinPath w k s) := fun s => by
      show findRel n (t c!"set" :: spinPath w k s) = _
      rw [findRel_cons']
      refine List.flatMap_congr fun m hm => ?_
      rw [if_pos (selects_t.2 (h m hm).1)]
    rw [e1, e1, run_collect (M := M false false) (fun m hm d1 d2 => ?_)]
    obtain ⟨h1, h2, h3⟩ := h m hm
    rw [run_node, noSpin_step hM (e := starts p m) h1 h2, Res.ok_bind, run_spinsOk hM h12 k w m h3, Res.ok_bind, noSpin_step hM (e := ends p m) h1 h2]

theorem run_description (hM : SpinMode kb s1 s2 M) (p : Option Node) (n : Node) (h : Description n) (x y : Bool) (d1 d2 : List Node) :
    run kb (events p n) (M x y d1 d2) = .ok (M x y d1 d2) := by
  have := run_events kb (fun _ : Unit => M x y d1 d2) (fun u _ => .ok u) (events p n)
    (fun e he _ => by rw [hM.other e x y d1 d2 (h _ (mem_events n p e he).1)]; rfl) ()
  rw [this, foldlM'_pure]
  rfl

/-- The content of an array. -/
theorem run_array (hM : SpinMode kb s1 s2 M) (h12 : s1 ≠ s2) (w k : Nat) (n : Node) (h : ArrayOk s1 s2 w k n) (p : Option Node) (d1 d2 : List Node) :
    run kb (eventsAll p n.children) (M false false d1 d2) =
    .ok (M false false (d1 ++ findRel n (t c!"set" :: spinPath w k s1)) (d2 ++ findRel n (t c!"set" :: spinPath w k s2))) := by
  rw [findRel_cons', findRel_cons', run_collect (M := M false false) (fun m hm d1 d2 => ?_)]
  rcases h.2.2.2 m hm with ⟨h1, h2, h3⟩ | hd
  · rw [run_node, noSpin_step hM (e := starts p m) h1 h2, Res.ok_bind, run_spinsOk hM h12 k w m h3, Res.ok_bind, noSpin_step hM (e := ends p m) h1 h2,
      if_pos (selects_t.2 h1), if_pos (selects_t.2 h1)]
  · have hs : (t c!"set").selects m = false := by
      cases hc : (t c!"set").selects m with
      | false => rfl
      | true =>
        have := selects_t.1 hc
        rcases hd m (List.mem_cons_self ..) with h | h <;> exact absurd (this.symm.trans h) (by decide)
    rw [run_description hM p m hd, hs]
    simp

/-- The content of an element with arrays. -/
theorem run_table (hM : SpinMode kb s1 s2 M) (h12 : s1 ≠ s2) (w k : Nat) (n : Node) (h : TableOk s1 s2 w k n)
    (ha : ∀ e d1 d2, e.node.tag = c!"array" → name e.node ≠ some c!"atoms" → name e.node ≠ some c!"born_charges" →
      step kb e (M false false d1 d2) = .ok (M false false d1 d2)) (p : Option Node) (d1 d2 : List Node) :
    run kb (eventsAll p n.children) (M false false d1 d2) =
    .ok (M false false (d1 ++ findRel n (t c!"array" :: t c!"set" :: spinPath w k s1)) (d2 ++ findRel n (t c!"array" :: t c!"set" :: spinPath w k s2))) := by
  rw [findRel_cons', findRel_cons', run_collect (M := M false false) (fun m hm d1 d2 => ?_)]
  obtain ⟨h1, h2, h3, _⟩ := h m hm
  rw [run_node, ha (starts p m) _ _ h1 h2 h3, Res.ok_bind, run_array hM h12 w k m (h m hm), Res.ok_bind, ha (ends p m) _ _ h1 h2 h3,
    if_pos (selects_t.2 h1), if_pos (selects_t.2 h1)]

end
end Verif.VasprunEvent
