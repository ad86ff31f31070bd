import Verif.Model.VasprunEvent
import Verif.Props.VasprunBasics
set_option autoImplicit false
namespace Verif.VasprunEvent
open Verif Verif.Utils Verif.Xml Verif.Vasprun

theorem seq_append (fs gs : List (St → Res St)) (s : St) : seq (fs ++ gs) s = (seq fs s >>= seq gs) := by
  induction fs generalizing s with
  | nil => rfl
  | cons f fs ih =>
    show (f s >>= fun s => seq (fs ++ gs) s) = ((f s >>= seq fs) >>= seq gs)
    cases f s with
    | ok s' => exact ih s'
    | exit c => rfl
    | raise e => rfl

theorem run_append (kb : Bool) (es fs : List Event) (s : St) : run kb (es ++ fs) s = (run kb es s >>= run kb fs) := by
  unfold run
  rw [List.map_append, seq_append]

theorem run_cons (kb : Bool) (e : Event) (fs : List Event) (s : St) : run kb (e :: fs) s = (step kb e s >>= run kb fs) := rfl

theorem run_nil (kb : Bool) (s : St) : run kb [] s = .ok s := rfl

/-- The start event of a node. -/
def starts (p : Option Node) (n : Node) : Event := ⟨true, n, p, n.text⟩
/-- The end event of a node. -/
def ends (p : Option Node) (n : Node) : Event := ⟨false, n, p, n.text⟩

theorem events_eq (p : Option Node) (n : Node) : events p n = starts p n :: (eventsAll (some n) n.children ++ [ends p n]) := by
  cases n; rw [events]; rfl

theorem eventsAll_nil (p : Option Node) : eventsAll p [] = [] := by rw [eventsAll]
theorem eventsAll_cons (p : Option Node) (c : Node) (cs : List Node) : eventsAll p (c :: cs) = events p c ++ eventsAll p cs := by rw [eventsAll]

theorem eventsAll_append (p : Option Node) (a b : List Node) : eventsAll p (a ++ b) = eventsAll p a ++ eventsAll p b := by
  induction a with
  | nil => rw [eventsAll_nil]; rfl
  | cons x xs ih => rw [List.cons_append, eventsAll_cons, eventsAll_cons, ih, List.append_assoc]

theorem run_node (kb : Bool) (p : Option Node) (n : Node) (s : St) :
    run kb (events p n) s = (step kb (starts p n) s >>= fun s => run kb (eventsAll (some n) n.children) s >>= step kb (ends p n)) := by
  rw [events_eq, run_cons]
  cases step kb (starts p n) s with
  | ok s' =>
    simp only [Res.ok_bind]
    rw [run_append]
    congr 1
    funext s''
    rw [run_cons]
    cases step kb (ends p n) s'' <;> rfl
  | exit c => rfl
  | raise e => rfl

/-! ### folds -/

theorem foldlM'_append {α σ : Type} (f : σ → α → Res σ) (s : σ) (a b : List α) :
    Res.foldlM' f s (a ++ b) = (Res.foldlM' f s a >>= fun s => Res.foldlM' f s b) := by
  induction a generalizing s with
  | nil => rfl
  | cons x xs ih =>
    simp only [List.cons_append, Res.foldlM']
    cases f s x with
    | ok s' => exact ih s'
    | exit c => rfl
    | raise e => rfl

theorem foldlM'_cons {α σ : Type} (f : σ → α → Res σ) (s : σ) (a : α) (b : List α) :
    Res.foldlM' f s (a :: b) = (f s a >>= fun s => Res.foldlM' f s b) := by
  simp only [Res.foldlM']
  cases f s a <;> rfl

/-- A fold that always succeeds. -/
theorem foldlM'_pure {α σ : Type} (f : σ → α → σ) (s : σ) (l : List α) : Res.foldlM' (fun s a => .ok (f s a)) s l = .ok (l.foldl f s) := by
  induction l generalizing s with
  | nil => rfl
  | cons a as ih => exact ih (f s a)

/-- If no element of the list changes `π`, the loop does not. -/
theorem foldlM'_keeps {α σ β : Type} {f : σ → α → Res σ} {π : σ → β} {l : List α} (h : ∀ a ∈ l, ∀ s s', f s a = .ok s' → π s' = π s)
    {s s' : σ} (hs : Res.foldlM' f s l = .ok s') : π s' = π s := by
  induction l generalizing s with
  | nil => injection hs with hs; rw [hs]
  | cons a as ih =>
    rw [foldlM'_cons] at hs
    obtain ⟨s1, h1, h2⟩ := Res.bind_eq_ok.1 hs
    rw [ih (fun a ha => h a (List.mem_cons_of_mem _ ha)) h2, h a (List.mem_cons_self ..) _ _ h1]

/-- If exactly one element of the list is of some kind and all others do not change `π`: what `π` is afterwards is set at that element. -/
theorem foldlM'_unique {α σ β : Type} {f : σ → α → Res σ} {π : σ → β} {l : List α} {k : α → Bool} {x : α} (hx : l.filter k = [x])
    (h : ∀ a ∈ l, k a = false → ∀ s s', f s a = .ok s' → π s' = π s) {s s' : σ} (hs : Res.foldlM' f s l = .ok s') :
    ∃ s1 s2, f s1 x = .ok s2 ∧ π s1 = π s ∧ π s' = π s2 ∧ ∃ pre post, l = pre ++ x :: post ∧ Res.foldlM' f s pre = .ok s1 := by
  induction l generalizing s with
  | nil => cases hx
  | cons a as ih =>
    rw [foldlM'_cons] at hs
    obtain ⟨s1, h1, h2⟩ := Res.bind_eq_ok.1 hs
    cases hk : k a with
    | true =>
      rw [List.filter_cons_of_pos hk] at hx
      injection hx with hxa hx
      subst hxa
      refine ⟨s, s1, h1, rfl, ?_, [], as, rfl, rfl⟩
      refine foldlM'_keeps (fun b hb => ?_) h2
      refine h b (List.mem_cons_of_mem _ hb) ?_
      by_contra hc
      have : b ∈ as.filter k := List.mem_filter.2 ⟨hb, by simpa using hc⟩
      rw [hx] at this; cases this
    | false =>
      rw [List.filter_cons_of_neg (by simp [hk])] at hx
      obtain ⟨t1, t2, g1, g2, g3, pre, post, g4, g5⟩ := ih hx (fun a ha => h a (List.mem_cons_of_mem _ ha)) h2
      refine ⟨t1, t2, g1, g2.trans (h a (List.mem_cons_self ..) hk _ _ h1), g3, a :: pre, post, by rw [g4]; rfl, ?_⟩
      rw [foldlM'_cons, h1]; exact g5

/-! ### runs -/

/-- Events read in one mode: the states are `X a`. -/
theorem run_events {α : Type} (kb : Bool) (X : α → St) (g : α → Event → Res α) (es : List Event)
    (h : ∀ e ∈ es, ∀ a, step kb e (X a) = (g a e >>= fun b => .ok (X b))) (a : α) :
    run kb es (X a) = (Res.foldlM' g a es >>= fun b => .ok (X b)) := by
  induction es generalizing a with
  | nil => rfl
  | cons e es ih =>
    rw [run_cons, h e (List.mem_cons_self ..), foldlM'_cons]
    cases g a e with
    | ok b => exact ih (fun e he => h e (List.mem_cons_of_mem _ he)) b
    | exit c => rfl
    | raise x => rfl

/-- Elements read one after the other in one mode. -/
theorem run_children {α : Type} (kb : Bool) (X : α → St) (g : α → Node → Res α) (p : Option Node) (cs : List Node)
    (h : ∀ c ∈ cs, ∀ a, run kb (events p c) (X a) = (g a c >>= fun b => .ok (X b))) (a : α) :
    run kb (eventsAll p cs) (X a) = (Res.foldlM' g a cs >>= fun b => .ok (X b)) := by
  induction cs generalizing a with
  | nil => rw [eventsAll_nil]; rfl
  | cons c cs ih =>
    rw [eventsAll_cons, run_append, h c (List.mem_cons_self ..), foldlM'_cons]
    cases g a c with
    | ok b => exact ih (fun e he => h e (List.mem_cons_of_mem _ he)) b
    | exit c => rfl
    | raise x => rfl

/-! ### events and elements -/

mutual
theorem mem_events : ∀ (n : Node) (p : Option Node) (e : Event), e ∈ events p n → e.node ∈ n :: below n ∧ e.seen = e.node.text
  | .node tag attrs text cs, p, e, h => by
    rw [events_eq] at h
    rcases List.mem_cons.1 h with rfl | h
    · exact ⟨List.mem_cons_self .., rfl⟩
    · rcases List.mem_append.1 h with h | h
      · obtain ⟨h1, h2⟩ := mem_eventsAll cs _ e h
        exact ⟨List.mem_cons_of_mem _ h1, h2⟩
      · rw [List.mem_singleton.1 h]
        exact ⟨List.mem_cons_self .., rfl⟩
theorem mem_eventsAll : ∀ (cs : List Node) (p : Option Node) (e : Event), e ∈ eventsAll p cs → e.node ∈ belowAll cs ∧ e.seen = e.node.text
  | [], p, e, h => by rw [eventsAll_nil] at h; cases h
  | c :: cs, p, e, h => by
    rw [eventsAll_cons] at h
    rw [belowAll, ← List.cons_append]
    rcases List.mem_append.1 h with h | h
    · obtain ⟨h1, h2⟩ := mem_events c p e h
      exact ⟨List.mem_append_left _ h1, h2⟩
    · obtain ⟨h1, h2⟩ := mem_eventsAll cs p e h
      exact ⟨List.mem_append_right _ h1, h2⟩
end

theorem below_eq (n : Node) : below n = belowAll n.children := by cases n; rw [below]; rfl

theorem mem_belowAll : ∀ {cs : List Node} {m : Node}, m ∈ cs → m ∈ belowAll cs
  | c :: cs, m, h => by
    rw [belowAll]
    rcases List.mem_cons.1 h with rfl | h
    · exact List.mem_cons_self ..
    · exact List.mem_cons_of_mem _ (List.mem_append_right _ (mem_belowAll h))

theorem mem_below {n m : Node} (h : m ∈ n.children) : m ∈ below n := by rw [below_eq]; exact mem_belowAll h

/-- The element of a start event. -/
def started (e : Event) : Option Node := if e.start then some e.node else none

mutual
theorem started_events : ∀ (n : Node) (p : Option Node), (events p n).filterMap started = n :: below n
  | .node tag attrs text cs, p => by
    rw [events_eq, List.filterMap_cons_some (b := .node tag attrs text cs) (by rfl), List.filterMap_append, started_eventsAll]
    simp [started, ends, Node.children, below]
theorem started_eventsAll : ∀ (cs : List Node) (p : Option Node), (eventsAll p cs).filterMap started = belowAll cs
  | [], p => by rw [eventsAll_nil]; rfl
  | c :: cs, p => by
    rw [eventsAll_cons, List.filterMap_append, started_events c, started_eventsAll cs, belowAll]; rfl
end

mutual
/-- The elements below one, each with its parent, in document order. -/
def pairs : Node → List (Node × Node)
  | .node tag attrs text cs => pairsAll (.node tag attrs text cs) cs
/-- The elements of a forest below `p`, each with its parent. -/
def pairsAll (p : Node) : List Node → List (Node × Node)
  | [] => []
  | c :: cs => (p, c) :: (pairs c ++ pairsAll p cs)
end

theorem pairs_eq (n : Node) : pairs n = pairsAll n n.children := by cases n; rw [pairs]; rfl

/-- The element of a start event and its parent. -/
def startedIn (e : Event) : Option (Node × Node) := if e.start then e.parent.map fun p => (p, e.node) else none

mutual
theorem startedIn_events : ∀ (n : Node) (p : Node), (events (some p) n).filterMap startedIn = (p, n) :: pairs n
  | .node tag attrs text cs, p => by
    rw [events_eq, List.filterMap_cons_some (b := (p, .node tag attrs text cs)) (by rfl), List.filterMap_append, pairs_eq]
    simp only [Node.children]
    rw [startedIn_eventsAll]
    simp [startedIn, ends]
theorem startedIn_eventsAll : ∀ (cs : List Node) (p : Node), (eventsAll (some p) cs).filterMap startedIn = pairsAll p cs
  | [], p => by rw [eventsAll_nil, pairsAll]; rfl
  | c :: cs, p => by
    rw [eventsAll_cons, List.filterMap_append, startedIn_events c, startedIn_eventsAll cs, pairsAll]; rfl
end

end Verif.VasprunEvent
