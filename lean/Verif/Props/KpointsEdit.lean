import Verif.Props.KpointsRound
import Verif.Lemmas.Exits
import Verif.Props.Utils
import Verif.Props.IncarWrite
/-! # KPOINTS objects: edits, validation, construction (C24, C25, C26, C27, C09 for Kpoints) -/
set_option autoImplicit false
namespace Verif.Kpoints
open Verif

/-! ### C24 -/

/-- A call on the object. -/
inductive Op
  | modify (entry : Str) (value : Val) (point : Option Int)
  | delete (point : Int)

/-- Perform a call. -/
def Op.run (e : Entries) : Op → Res Entries
  | .modify entry v n => Kpoints.modify e entry v n
  | .delete n => deletePoint e n

/-- Perform calls that all return normally. -/
inductive Runs : Entries → List Op → Entries → Prop
  | nil (e) : Runs e [] e
  | cons {e e' e''} {op ops} : op.run e = .ok e' → Runs e' ops e'' → Runs e (op :: ops) e''

theorem validate_ok_iff (e : Entries) : validate e = .ok () ↔
    checkDict e = .ok () ∧ checkComment e .none = .ok () ∧ checkPoints e .none = .ok () ∧ checkCentering e .none = .ok () ∧
    checkDivisions e .none = .ok () ∧ checkVectors e .none = .ok () ∧ checkShifts e .none = .ok () ∧ checkMode e .none = .ok () ∧
    checkNum e .none = .ok () ∧ checkTetra e .none = .ok () ∧ checkTetraVolume e .none = .ok () := by
  unfold validate
  simp only [Res.bind_eq_ok]
  constructor
  · rintro ⟨⟨⟩, h1, ⟨⟩, h2, ⟨⟩, h3, ⟨⟩, h4, ⟨⟩, h5, ⟨⟩, h6, ⟨⟩, h7, ⟨⟩, h8, ⟨⟩, h9, ⟨⟩, h10, h11⟩
    exact ⟨h1, h2, h3, h4, h5, h6, h7, h8, h9, h10, h11⟩
  · rintro ⟨h1, h2, h3, h4, h5, h6, h7, h8, h9, h10, h11⟩
    exact ⟨(), h1, (), h2, (), h3, (), h4, (), h5, (), h6, (), h7, (), h8, (), h9, (), h10, h11⟩

theorem argOr_frame (e : Entries) {k k' : Str} (v : Val) (h : k ≠ k') : argOr (e.set k v) k' .none = argOr e k' .none := by
  unfold argOr; rw [Dict.get?_set, if_neg h]

theorem lookup_frame (e : Entries) {k k' : Str} (v : Val) (h : k ≠ k') : lookup (e.set k v) k' = lookup e k' := by
  unfold lookup; rw [Dict.get?_set, if_neg h]

theorem argOr_hit (e : Entries) (k : Str) (v : Val) : argOr (e.set k v) k .none = .ok v := by
  unfold argOr; rw [if_pos rfl, Dict.get?_set, if_pos rfl]

theorem lookup_hit (e : Entries) (k : Str) (v : Val) : lookup (e.set k v) k = .ok v := by
  unfold lookup; rw [Dict.get?_set, if_pos rfl]

/-- A check that accepted the new value accepts it once stored, if the value is not `None` or `None` is fine anyway. -/
theorem check_hit {e : Entries} {k : Str} {v : Val} {f : Val → Res Unit} (h : (argOr e k v >>= f) = .ok ())
    (hv : v ≠ .none ∨ f .none = .ok ()) : (argOr (e.set k v) k .none >>= f) = .ok () := by
  rw [argOr_hit]
  by_cases hn : v = .none
  · rcases hv with hv | hv
    · exact absurd hn hv
    · rw [hn]; exact hv
  · unfold argOr at h; rw [if_neg hn] at h; exact h

/-- The calls for which C24 is proved: `num_kpoints` and `divisions` are not set to `None`, `comment` is set to a string or to
`None`. -/
def Careful : Op → Prop
  | .modify entry v none => (entry = c!"num_kpoints" → v ≠ .none) ∧ (entry = c!"divisions" → v ≠ .none) ∧
      (entry = c!"comment" → v = .none ∨ ∃ s, v = .str s)
  | _ => True

theorem checkDict_frame (e : Entries) (k : Str) (v : Val) (h1 : k ≠ c!"divisions") (h2 : k ≠ c!"points")
    (h3 : k ≠ c!"generating_vectors") : checkDict (e.set k v) = checkDict e := by
  unfold checkDict; rw [lookup_frame e v h1, lookup_frame e v h2, lookup_frame e v h3]

theorem checkComment_frame (e : Entries) (k : Str) (v : Val) (h : k ≠ c!"comment") :
    checkComment (e.set k v) .none = checkComment e .none := by
  unfold checkComment; rw [argOr_frame e v h, lookup_frame e v h]

/-- Storing a list of points keeps the object valid. -/
theorem validate_set_points {e : Entries} (l : List Elem) (h : validate e = .ok ()) :
    validate (e.set c!"points" (.list l)) = .ok () := by
  rw [validate_ok_iff] at h ⊢
  obtain ⟨h1, h2, h3, h4, h5, h6, h7, h8, h9, h10, h11⟩ := h
  refine ⟨?_, ?_, ?_, ?_, ?_, ?_, ?_, ?_, ?_, ?_, ?_⟩
  · unfold checkDict at h1 ⊢
    rw [lookup_frame e _ (by decide), lookup_hit, lookup_frame e _ (by decide)]
    rw [Res.bind_eq_ok] at h1 ⊢
    obtain ⟨d, hd, h1⟩ := h1
    refine ⟨d, hd, ?_⟩
    by_cases hdn : d = .none
    · rw [if_pos hdn]; rfl
    · rw [if_neg hdn]
  · rw [checkComment_frame e _ _ (by decide)]; exact h2
  · unfold checkPoints; rw [argOr_hit]; rfl
  · unfold checkCentering at h4 ⊢; rw [argOr_frame e _ (by decide)]; exact h4
  · unfold checkDivisions at h5 ⊢; rw [argOr_frame e _ (by decide)]; exact h5
  · unfold checkVectors at h6 ⊢; rw [argOr_frame e _ (by decide)]; exact h6
  · unfold checkShifts at h7 ⊢; rw [argOr_frame e _ (by decide)]; exact h7
  · unfold checkMode at h8 ⊢; rw [argOr_frame e _ (by decide)]; exact h8
  · unfold checkNum at h9 ⊢; rw [argOr_frame e _ (by decide)]; exact h9
  · unfold checkTetra at h10 ⊢; rw [argOr_frame e _ (by decide)]; exact h10
  · unfold checkTetraVolume at h11 ⊢; rw [argOr_frame e _ (by decide)]; exact h11

theorem validate_set {e : Entries} {entry : Str} {v : Val} (h : validate e = .ok ()) (hallowed : checkAllowed entry = .ok ())
    (hc : checkEntry e entry v = .ok ()) (hcare : Careful (.modify entry v none)) : validate (e.set entry v) = .ok () := by
  have hgv : entry ≠ c!"generating_vectors" := by rintro rfl; revert hallowed; decide
  obtain ⟨c1, c2, c3⟩ := hcare
  by_cases hp : entry = c!"points"
  · subst hp
    unfold checkEntry at hc
    rw [if_pos rfl, Res.bind_eq_ok] at hc
    obtain ⟨_, hc1, hc2⟩ := hc
    match v with
    | .list l => exact validate_set_points l h
    | .atom .none => cases hc2
    | .atom (.int _) => cases hc2
    | .atom (.float _) => cases hc2
    | .atom (.point _) => cases hc2
    | .atom .other => cases hc2
    | .atom (.str s) => cases hc1
  · rw [validate_ok_iff] at h ⊢
    obtain ⟨h1, h2, h3, h4, h5, h6, h7, h8, h9, h10, h11⟩ := h
    refine ⟨?_, ?_, ?_, ?_, ?_, ?_, ?_, ?_, ?_, ?_, ?_⟩
    · by_cases hd : entry = c!"divisions"
      · subst hd
        unfold checkDict
        rw [lookup_hit]; simp only [Res.ok_bind]
        rw [if_neg (c2 rfl)]
      · rw [checkDict_frame e _ _ hd hp hgv]; exact h1
    · by_cases hd : entry = c!"comment"
      · subst hd
        unfold checkComment
        rw [argOr_hit, lookup_hit]; simp only [Res.ok_bind]
        rcases c3 rfl with rfl | ⟨s, rfl⟩
        · rfl
        · rfl
      · rw [checkComment_frame e _ _ hd]; exact h2
    · unfold checkPoints at h3 ⊢; rw [argOr_frame e _ hp]; exact h3
    · by_cases hd : entry = c!"centering"
      · subst hd
        have : checkCentering e v = .ok () := hc
        exact check_hit this (.inr rfl)
      · unfold checkCentering at h4 ⊢; rw [argOr_frame e _ hd]; exact h4
    · by_cases hd : entry = c!"divisions"
      · subst hd
        have : checkDivisions e v = .ok () := hc
        exact check_hit this (.inr rfl)
      · unfold checkDivisions at h5 ⊢; rw [argOr_frame e _ hd]; exact h5
    · unfold checkVectors at h6 ⊢; rw [argOr_frame e _ hgv]; exact h6
    · by_cases hd : entry = c!"shifts"
      · subst hd
        have : checkShifts e v = .ok () := hc
        exact check_hit this (.inr rfl)
      · unfold checkShifts at h7 ⊢; rw [argOr_frame e _ hd]; exact h7
    · by_cases hd : entry = c!"mode"
      · subst hd
        have : checkMode e v = .ok () := hc
        exact check_hit this (.inr rfl)
      · unfold checkMode at h8 ⊢; rw [argOr_frame e _ hd]; exact h8
    · by_cases hd : entry = c!"num_kpoints"
      · subst hd
        have : checkNum e v = .ok () := hc
        exact check_hit this (.inl (c1 rfl))
      · unfold checkNum at h9 ⊢; rw [argOr_frame e _ hd]; exact h9
    · by_cases hd : entry = c!"tetra"
      · subst hd
        have : checkTetra e v = .ok () := hc
        exact check_hit this (.inr rfl)
      · unfold checkTetra at h10 ⊢; rw [argOr_frame e _ hd]; exact h10
    · by_cases hd : entry = c!"tetra_volume"
      · subst hd
        have : checkTetraVolume e v = .ok () := hc
        exact check_hit this (.inr rfl)
      · unfold checkTetraVolume at h11 ⊢; rw [argOr_frame e _ hd]; exact h11

theorem validate_step {e e' : Entries} {op : Op} (h : validate e = .ok ()) (hr : op.run e = .ok e') (hc : Careful op) :
    validate e' = .ok () := by
  cases op with
  | modify entry v n =>
    unfold Op.run Kpoints.modify at hr
    rw [Res.bind_eq_ok] at hr
    obtain ⟨⟨⟩, ha, hr⟩ := hr
    rw [Res.bind_eq_ok] at hr
    obtain ⟨⟨⟩, _, hr⟩ := hr
    cases n with
    | none =>
      simp only [Res.bind_eq_ok] at hr
      obtain ⟨⟨⟩, hce, hr⟩ := hr
      cases hr
      exact validate_set h ha hce hc
    | some n =>
      simp only [Res.bind_eq_ok] at hr
      obtain ⟨_, _, _, _, w, _, hr⟩ := hr
      match w with
      | .list l =>
        simp only at hr
        split at hr
        · cases hr; exact validate_set_points _ h
        · cases hr
      | .atom _ => cases hr
  | delete n =>
    unfold Op.run deletePoint at hr
    simp only [Res.bind_eq_ok] at hr
    obtain ⟨_, _, _, _, w, _, hr⟩ := hr
    match w with
    | .list l =>
      simp only at hr
      split at hr
      · cases hr; exact validate_set_points _ h
      · cases hr
    | .atom _ => cases hr

/-- Specification of a well typed object: the documented type of every entry, and something to sample. -/
structure ValidEntries (e : Entries) : Prop where
  something : ∃ k ∈ [c!"divisions", c!"points", c!"generating_vectors"], ∃ v, e.get? k = some v ∧ v ≠ .none
  divisions : e.get? c!"divisions" = some .none ∨ ∃ ns : List Int, e.get? c!"divisions" = some (.list (ns.map fun n => .atom (.int n)))
  comment : e.get? c!"comment" = some .none ∨ ∃ s, e.get? c!"comment" = some (.str s)
  points : e.get? c!"points" = some .none ∨ ∃ l, e.get? c!"points" = some (.list l)
  centering : e.get? c!"centering" = some .none ∨ e.get? c!"centering" = some (.str c!"Gamma") ∨
    e.get? c!"centering" = some (.str c!"Monkhorst-Pack") ∨ e.get? c!"centering" = some (.str c!"Reciprocal")
  vectors : e.get? c!"generating_vectors" = some .none ∨
    ∃ vs : List (List Rat), e.get? c!"generating_vectors" = some (.list (vs.map fun v => .list (v.map .float)))
  shifts : e.get? c!"shifts" = some .none ∨ ∃ xs : List Rat, e.get? c!"shifts" = some (.list (xs.map fun x => .atom (.float x)))
  mode : e.get? c!"mode" = some .none ∨ e.get? c!"mode" = some (.str c!"explicit") ∨ e.get? c!"mode" = some (.str c!"automatic") ∨
    e.get? c!"mode" = some (.str c!"line")
  num : ∃ n, e.get? c!"num_kpoints" = some (.int n)
  tetra : e.get? c!"tetra" = some .none ∨
    ∃ rs : List (List Int), (∀ r ∈ rs, r.length = 5) ∧ e.get? c!"tetra" = some (.list (rs.map fun r => .list (r.map .int)))
  volume : e.get? c!"tetra_volume" = some .none ∨ ∃ x, e.get? c!"tetra_volume" = some (.float x)

theorem argOr_ok {e : Entries} {k : Str} {f : Val → Res Unit} :
    (argOr e k .none >>= f) = .ok () ↔ ∃ w, e.get? k = some w ∧ f w = .ok () := by
  unfold argOr
  rw [if_pos rfl]
  cases e.get? k with
  | none => simp
  | some w => simp

theorem all_map {α β} (f : α → β) (p : β → Bool) (hp : ∀ b, p b = true ↔ ∃ a, b = f a) (l : List β) :
    l.all p = true ↔ ∃ as : List α, l = as.map f := by
  rw [List.all_eq_true]
  constructor
  · intro h
    induction l with
    | nil => exact ⟨[], rfl⟩
    | cons b bs ih =>
      obtain ⟨a, ha⟩ := (hp b).1 (h b (by simp))
      obtain ⟨as, has⟩ := ih fun x hx => h x (by simp [hx])
      exact ⟨a :: as, by rw [ha, has]; rfl⟩
  · rintro ⟨as, rfl⟩ b hb
    obtain ⟨a, _, rfl⟩ := List.mem_map.1 hb
    exact (hp _).2 ⟨a, rfl⟩

theorem mapM'_unit_ok {α} (f : α → Res Unit) (l : List α) : (Res.mapM' f l >>= fun _ => Res.ok ()) = .ok () ↔ ∀ a ∈ l, f a = .ok () := by
  rw [Res.bind_eq_ok]
  constructor
  · rintro ⟨us, h, _⟩
    rw [Res.mapM'_eq_ok] at h
    induction h with
    | nil => intro a ha; cases ha
    | cons h1 _ ih =>
      intro x hx
      rcases List.mem_cons.1 hx with rfl | hx
      · exact h1
      · exact ih x hx
  · intro h
    refine ⟨l.map fun _ => (), Res.mapM'_ok_of_forall l h, rfl⟩

/-- C24: the class's validation accepts exactly the well typed objects. -/
theorem C24_validation (e : Entries) : validate e = .ok () ↔ ValidEntries e := by
  rw [validate_ok_iff]
  have hD : checkDict e = .ok () → (∃ k ∈ [c!"divisions", c!"points", c!"generating_vectors"], ∃ v, e.get? k = some v ∧ v ≠ .none) := by
    intro h
    unfold checkDict lookup at h
    cases hd : e.get? c!"divisions" with
    | none => rw [hd] at h; cases h
    | some d =>
      rw [hd] at h
      simp only [Res.ok_bind] at h
      split at h
      · cases hp : e.get? c!"points" with
        | none => rw [hp] at h; cases h
        | some p =>
          rw [hp] at h
          simp only [Res.ok_bind] at h
          split at h
          · cases hg : e.get? c!"generating_vectors" with
            | none => rw [hg] at h; cases h
            | some g =>
              rw [hg] at h
              simp only [Res.ok_bind] at h
              split at h
              · cases h
              · rename_i hne; exact ⟨_, by simp, g, hg, hne⟩
          · rename_i hne; exact ⟨_, by simp, p, hp, hne⟩
      · rename_i hne; exact ⟨_, by simp, d, hd, hne⟩
  have hint : ∀ l : List Elem, l.all isInt = true ↔ ∃ ns : List Int, l = ns.map fun n => .atom (.int n) := by
    intro l
    refine all_map _ _ ?_ l
    intro b
    unfold isInt
    split
    · simp
    · rename_i h; simp; intro x hx; exact h x hx
  have hflo : ∀ l : List Elem, l.all isFloat = true ↔ ∃ ns : List Rat, l = ns.map fun n => .atom (.float n) := by
    intro l
    refine all_map _ _ ?_ l
    intro b
    unfold isFloat
    split
    · simp
    · rename_i h; simp; intro x hx; exact h x hx
  have hatomf : ∀ l : List Atom, l.all (fun | .float _ => true | _ => false) = true ↔ ∃ ns : List Rat, l = ns.map .float := by
    intro l
    refine all_map _ _ ?_ l
    intro b
    cases b <;> simp
  have hatomi : ∀ l : List Atom, l.all (fun | .int _ => true | _ => false) = true ↔ ∃ ns : List Int, l = ns.map .int := by
    intro l
    refine all_map _ _ ?_ l
    intro b
    cases b <;> simp
  have hrow : ∀ l : List Elem, l.all isFloatRow = true ↔ ∃ vs : List (List Rat), l = vs.map fun v => .list (v.map .float) := by
    intro l
    refine all_map _ _ ?_ l
    intro b
    cases b with
    | atom a => simp [isFloatRow]
    | list l => simp only [isFloatRow, Elem.list.injEq]; exact hatomf l
  have htet : ∀ l : List Elem, (Res.mapM' checkTetraElem l >>= fun _ => Res.ok ()) = .ok () ↔
      ∃ rs : List (List Int), (∀ r ∈ rs, r.length = 5) ∧ l = rs.map fun r => .list (r.map .int) := by
    intro l
    rw [mapM'_unit_ok]
    constructor
    · intro h
      induction l with
      | nil => exact ⟨[], by simp, rfl⟩
      | cons b bs ih =>
        obtain ⟨rs, h1, h2⟩ := ih fun x hx => h x (by simp [hx])
        have hb := h b (by simp)
        unfold checkTetraElem at hb
        split at hb
        · rename_i r
          split at hb
          · cases hb
          · rename_i hlen
            split at hb
            · rename_i hall
              obtain ⟨ns, rfl⟩ := (hatomi r).1 hall
              refine ⟨ns :: rs, ?_, by rw [h2]; rfl⟩
              intro x hx
              rcases List.mem_cons.1 hx with rfl | hx
              · simpa using hlen
              · exact h1 x hx
            · cases hb
        · cases hb
    · rintro ⟨rs, h1, rfl⟩ b hb
      obtain ⟨r, hr, rfl⟩ := List.mem_map.1 hb
      unfold checkTetraElem
      simp only [List.length_map, h1 r hr, ne_eq, not_true_eq_false, if_false]
      exact if_pos ((hatomi _).2 ⟨r, rfl⟩)
  constructor
  · rintro ⟨h1, h2, h3, h4, h5, h6, h7, h8, h9, h10, h11⟩
    refine ⟨hD h1, ?_, ?_, ?_, ?_, ?_, ?_, ?_, ?_, ?_, ?_⟩
    · unfold checkDivisions at h5
      obtain ⟨w, hw, h⟩ := argOr_ok.1 h5
      split at h
      · exact .inl hw
      · split at h
        · rename_i hl; obtain ⟨ns, rfl⟩ := (hint _).1 hl; exact .inr ⟨ns, hw⟩
        · cases h
      · cases h
    · unfold checkComment at h2
      obtain ⟨w, hw, h⟩ := argOr_ok.1 h2
      unfold lookup at h
      rw [hw, Res.ok_bind] at h
      split at h
      · rename_i hn; subst hn; exact .inl hw
      · split at h
        · exact .inr ⟨_, hw⟩
        · cases h
    · unfold checkPoints at h3
      obtain ⟨w, hw, h⟩ := argOr_ok.1 h3
      split at h
      · exact .inl hw
      · exact .inr ⟨_, hw⟩
      · cases h
    · unfold checkCentering at h4
      obtain ⟨w, hw, h⟩ := argOr_ok.1 h4
      split at h
      · exact .inl hw
      · split at h
        · rename_i hs
          simp only [List.mem_cons, List.not_mem_nil, or_false] at hs
          rcases hs with rfl | rfl | rfl
          · exact .inr (.inl hw)
          · exact .inr (.inr (.inl hw))
          · exact .inr (.inr (.inr hw))
        · cases h
      · cases h
    · unfold checkVectors at h6
      obtain ⟨w, hw, h⟩ := argOr_ok.1 h6
      split at h
      · exact .inl hw
      · split at h
        · rename_i hl; obtain ⟨ns, rfl⟩ := (hrow _).1 hl; exact .inr ⟨ns, hw⟩
        · cases h
      · cases h
    · unfold checkShifts at h7
      obtain ⟨w, hw, h⟩ := argOr_ok.1 h7
      split at h
      · exact .inl hw
      · split at h
        · rename_i hl; obtain ⟨ns, rfl⟩ := (hflo _).1 hl; exact .inr ⟨ns, hw⟩
        · cases h
      · cases h
    · unfold checkMode at h8
      obtain ⟨w, hw, h⟩ := argOr_ok.1 h8
      split at h
      · exact .inl hw
      · split at h
        · rename_i hs
          simp only [List.mem_cons, List.not_mem_nil, or_false] at hs
          rcases hs with rfl | rfl | rfl
          · exact .inr (.inl hw)
          · exact .inr (.inr (.inl hw))
          · exact .inr (.inr (.inr hw))
        · cases h
      · cases h
    · unfold checkNum at h9
      obtain ⟨w, hw, h⟩ := argOr_ok.1 h9
      split at h
      · exact ⟨_, hw⟩
      · cases h
    · unfold checkTetra at h10
      obtain ⟨w, hw, h⟩ := argOr_ok.1 h10
      split at h
      · exact .inl hw
      · obtain ⟨rs, h1, rfl⟩ := (htet _).1 h
        exact .inr ⟨rs, h1, hw⟩
      · cases h
    · unfold checkTetraVolume at h11
      obtain ⟨w, hw, h⟩ := argOr_ok.1 h11
      split at h
      · exact .inl hw
      · exact .inr ⟨_, hw⟩
      · cases h
  · intro V
    refine ⟨?_, ?_, ?_, ?_, ?_, ?_, ?_, ?_, ?_, ?_, ?_⟩
    · have g1 : ∃ v, e.get? c!"divisions" = some v := by rcases V.divisions with h | ⟨_, h⟩ <;> exact ⟨_, h⟩
      have g2 : ∃ v, e.get? c!"points" = some v := by rcases V.points with h | ⟨_, h⟩ <;> exact ⟨_, h⟩
      have g3 : ∃ v, e.get? c!"generating_vectors" = some v := by rcases V.vectors with h | ⟨_, h⟩ <;> exact ⟨_, h⟩
      obtain ⟨v1, g1⟩ := g1
      obtain ⟨v2, g2⟩ := g2
      obtain ⟨v3, g3⟩ := g3
      unfold checkDict lookup
      simp only [g1, g2, g3, Res.ok_bind]
      obtain ⟨k, hk, v, hv, hne⟩ := V.something
      simp only [List.mem_cons, List.not_mem_nil, or_false] at hk
      by_cases n1 : v1 = .none
      · rw [if_pos n1]
        by_cases n2 : v2 = .none
        · rw [if_pos n2]
          have : v3 ≠ .none := by
            rcases hk with rfl | rfl | rfl
            · rw [g1] at hv; cases hv; exact absurd n1 hne
            · rw [g2] at hv; cases hv; exact absurd n2 hne
            · rw [g3] at hv; cases hv; exact hne
          rw [if_neg this]
        · rw [if_neg n2]
      · rw [if_neg n1]
    · unfold checkComment
      rcases V.comment with h | ⟨s, h⟩
      · exact argOr_ok.2 ⟨_, h, by unfold lookup; rw [h, Res.ok_bind, if_pos rfl]⟩
      · exact argOr_ok.2 ⟨_, h, by unfold lookup; rw [h, Res.ok_bind]; simp⟩
    · unfold checkPoints
      rcases V.points with h | ⟨s, h⟩ <;> exact argOr_ok.2 ⟨_, h, rfl⟩
    · unfold checkCentering
      rcases V.centering with h | h | h | h <;> exact argOr_ok.2 ⟨_, h, by simp⟩
    · unfold checkDivisions
      rcases V.divisions with h | ⟨s, h⟩
      · exact argOr_ok.2 ⟨_, h, rfl⟩
      · exact argOr_ok.2 ⟨_, h, if_pos ((hint _).2 ⟨s, rfl⟩)⟩
    · unfold checkVectors
      rcases V.vectors with h | ⟨s, h⟩
      · exact argOr_ok.2 ⟨_, h, rfl⟩
      · exact argOr_ok.2 ⟨_, h, if_pos ((hrow _).2 ⟨s, rfl⟩)⟩
    · unfold checkShifts
      rcases V.shifts with h | ⟨s, h⟩
      · exact argOr_ok.2 ⟨_, h, rfl⟩
      · exact argOr_ok.2 ⟨_, h, if_pos ((hflo _).2 ⟨s, rfl⟩)⟩
    · unfold checkMode
      rcases V.mode with h | h | h | h <;> exact argOr_ok.2 ⟨_, h, by simp⟩
    · unfold checkNum
      obtain ⟨n, h⟩ := V.num
      exact argOr_ok.2 ⟨_, h, rfl⟩
    · unfold checkTetra
      rcases V.tetra with h | ⟨rs, h1, h⟩
      · exact argOr_ok.2 ⟨_, h, rfl⟩
      · exact argOr_ok.2 ⟨_, h, (htet _).2 ⟨rs, h1, rfl⟩⟩
    · unfold checkTetraVolume
      rcases V.volume with h | ⟨s, h⟩ <;> exact argOr_ok.2 ⟨_, h, rfl⟩

/-- C24, partial: after any history of normally returning calls that are `Careful`, a well typed object is still well typed. Missing:
the calls excluded by `Careful`; there the claim is false (`C24_violation_num`, `C24_violation_comment`, `C24_violation_divisions`). -/
theorem C24_history_partial {e e' : Entries} {ops : List Op} (h : ValidEntries e) (hr : Runs e ops e')
    (hc : ∀ op ∈ ops, Careful op) : ValidEntries e' := by
  rw [← C24_validation] at *
  induction hr with
  | nil => exact h
  | cons h1 _ ih => exact ih (validate_step h h1 (hc _ (by simp))) (fun op hop => hc op (by simp [hop]))

/-- Non-vacuity: edit the comment, delete a point, replace a point, change the number. -/
example : ∃ e', Runs exampleExplicit.toEntries
    [.modify c!"comment" (.str c!"new") none, .delete 1, .modify c!"points" (.atom (.point ⟨[1, 1, 1], none, true⟩)) (some 0),
     .modify c!"num_kpoints" (.int 1) none] e' ∧
    validate exampleExplicit.toEntries = .ok () := by
  exact ⟨_, .cons rfl (.cons rfl (.cons rfl (.cons rfl (.nil _)))), by decide +kernel⟩

/-- C24 is false: `modify('num_kpoints', None)` returns normally and leaves an invalid object. -/
theorem C24_violation_num : ∃ e e', validate e = .ok () ∧ modify e c!"num_kpoints" .none none = .ok e' ∧ validate e' = .exit 13 :=
  ⟨exampleExplicit.toEntries, _, by decide +kernel, rfl, by decide +kernel⟩

/-- C24 is false: `modify('comment', None)` and then `modify('comment', 5)` leaves an invalid object. -/
theorem C24_violation_comment : ∃ e e', validate e = .ok () ∧
    Runs e [.modify c!"comment" .none none, .modify c!"comment" (.int 5) none] e' ∧ validate e' = .exit 13 :=
  ⟨exampleExplicit.toEntries, _, by decide +kernel, .cons rfl (.cons rfl (.nil _)), by decide +kernel⟩

/-- C24 is false: `modify('divisions', None)` on an automatic grid leaves an object with nothing to sample. -/
theorem C24_violation_divisions : ∃ e e', validate e = .ok () ∧ modify e c!"divisions" .none none = .ok e' ∧ validate e' = .exit 206 :=
  ⟨Parsed.toEntries { comment := [], num := 0, mode := c!"automatic", centering := some c!"Gamma", divisions := some [2, 2, 2] }, _,
    by decide +kernel, rfl, by decide +kernel⟩

/-! ### C25 -/

/-- Specification: what the documentation asks of the value of each entry. -/
inductive WellTyped : Str → Val → Prop
  | comment (s : Str) : WellTyped c!"comment" (.str s)
  | points (ps : List Kpoint) (h : ∀ p ∈ ps, p.direct = true) : WellTyped c!"points" (atomsVal .point ps)
  | divisions (ns : List Int) : WellTyped c!"divisions" (atomsVal .int ns)
  | shifts (xs : List Rat) : WellTyped c!"shifts" (atomsVal .float xs)
  | tetra (rs : List (List Int)) (h : ∀ r ∈ rs, r.length = 5) : WellTyped c!"tetra" (rowsVal .int rs)
  | volume (x : Rat) : WellTyped c!"tetra_volume" (.float x)
  | mode (s : Str) (h : s = c!"explicit" ∨ s = c!"automatic" ∨ s = c!"line") : WellTyped c!"mode" (.str s)
  | centering (s : Str) (h : s = c!"Gamma" ∨ s = c!"Monkhorst-Pack" ∨ s = c!"Reciprocal") : WellTyped c!"centering" (.str s)
  | num (n : Int) : WellTyped c!"num_kpoints" (.int n)

theorem mapM'_unit {α} (f : α → Res Unit) (l : List α) (h : ∀ a ∈ l, f a = .ok ()) : ∃ us, Res.mapM' f l = .ok us := by
  induction l with
  | nil => exact ⟨[], rfl⟩
  | cons a as ih =>
    obtain ⟨us, hus⟩ := ih (fun x hx => h x (by simp [hx]))
    exact ⟨() :: us, by simp [Res.mapM', h a (by simp), hus]⟩

/-- C25, partial: on a valid object, setting a documented entry to a well typed value stores exactly that value (and any later
look-up of another entry is unaffected). Missing: `generating_vectors`, which is refused (`C25_violation_vectors`). -/
theorem C25_modify_partial {e : Entries} (h : validate e = .ok ()) {entry : Str} {v : Val} (ht : WellTyped entry v) :
    ∃ e', modify e entry v none = .ok e' ∧ e'.get? entry = some v ∧ ∀ k, k ≠ entry → e'.get? k = e.get? k := by
  have hd := ((validate_ok_iff e).1 h).1
  refine ⟨e.set entry v, ?_, by rw [Dict.get?_set, if_pos rfl], ?_⟩
  · have ha : checkAllowed entry = .ok () := by cases ht <;> decide
    unfold modify
    rw [ha, hd]
    simp only [Res.ok_bind]
    have hc : checkEntry e entry v = .ok () := by
      cases ht with
      | comment s =>
        have : checkComment e (.str s) = .ok () := by
          have h2 := ((validate_ok_iff e).1 h).2.1
          unfold checkComment at h2 ⊢
          rw [Res.bind_eq_ok] at h2
          obtain ⟨w, _, h2⟩ := h2
          rw [Res.bind_eq_ok] at h2
          obtain ⟨st, hst, _⟩ := h2
          rw [hst]
          simp [argOr]
        exact this
      | points ps hps =>
        have h1 : checkPoints e (atomsVal .point ps) = .ok () := by simp [checkPoints, argOr, atomsVal]
        have h2 : checkDirect (atomsVal .point ps) = .ok () := by
          unfold checkDirect atomsVal
          dsimp only
          obtain ⟨us, hus⟩ := mapM'_unit (fun x => match x with
            | Elem.atom (.point p) => if p.direct = true then Res.ok () else .exit 205
            | _ => .raise .attributeError) (ps.map fun a => Elem.atom (.point a)) (by
              intro a ha
              obtain ⟨p, hp, rfl⟩ := List.mem_map.1 ha
              simp [hps p hp])
          exact Res.bind_eq_ok.2 ⟨us, hus, rfl⟩
        show (checkPoints e (atomsVal .point ps) >>= fun _ => checkDirect (atomsVal .point ps)) = _
        rw [h1, h2]; rfl
      | divisions ns =>
        show checkDivisions e (atomsVal .int ns) = _
        simp [checkDivisions, argOr, atomsVal, isInt]
      | shifts xs =>
        show checkShifts e (atomsVal .float xs) = _
        simp [checkShifts, argOr, atomsVal, isFloat]
      | tetra rs hrs =>
        show checkTetra e (rowsVal .int rs) = _
        obtain ⟨us, hus⟩ := mapM'_unit checkTetraElem (rs.map fun r => Elem.list (r.map Atom.int)) (by
          intro a ha
          obtain ⟨r, hr, rfl⟩ := List.mem_map.1 ha
          simp [checkTetraElem, hrs r hr])
        simp [checkTetra, argOr, rowsVal, hus]
      | volume x =>
        show checkTetraVolume e (.float x) = _
        simp [checkTetraVolume, argOr]
      | mode s hs =>
        show checkMode e (.str s) = _
        rcases hs with rfl | rfl | rfl <;> simp [checkMode, argOr]
      | centering s hs =>
        show checkCentering e (.str s) = _
        rcases hs with rfl | rfl | rfl <;> simp [checkCentering, argOr]
      | num n =>
        show checkNum e (.int n) = _
        simp [checkNum, argOr]
    rw [hc]; rfl
  · intro k hk; rw [Dict.get?_set, if_neg (fun h => hk h.symm)]

/-- C25, partial: a name in which none of the nine accepted names occurs as a substring is refused with exit code 207, whatever
the other arguments. Missing: names containing one of them, which are accepted (`C25_violation_name`). -/
theorem C25_refused_partial (e : Entries) (entry : Str) (v : Val) (n : Option Int)
    (h : ∀ k ∈ [c!"comment", c!"points", c!"tetra", c!"tetra_volume", c!"divisions", c!"mode", c!"num_kpoints", c!"shifts",
      c!"centering"], ¬ k <:+: entry) : modify e entry v n = .exit 207 := by
  have : checkAllowed entry = .exit 207 := by
    unfold checkAllowed
    rw [if_neg]
    rw [List.any_eq_true]
    rintro ⟨k, hk, hc⟩
    exact h k hk ((Verif.Utils.contains_iff k entry).1 hc)
  unfold modify; rw [this]; rfl

/-- C25 is false: the documented entry `generating_vectors` cannot be modified, whatever the value. -/
theorem C25_violation_vectors (e : Entries) (v : Val) (n : Option Int) : modify e c!"generating_vectors" v n = .exit 207 := by
  have : checkAllowed c!"generating_vectors" = .exit 207 := by decide
  unfold modify; rw [this]; rfl

/-- C25 is false: an undocumented entry name is accepted with any value. -/
theorem C25_violation_name (e : Entries) (h : validate e = .ok ()) (v : Val) :
    modify e c!"my_points" v none = .ok (e.set c!"my_points" v) := by
  have hd := ((validate_ok_iff e).1 h).1
  have ha : checkAllowed c!"my_points" = .ok () := by decide
  unfold modify; rw [ha, hd]; rfl

/-! ### C26 -/

theorem deletePoint_ok {e : Entries} {ps : List Kpoint} (hp : e.get? c!"points" = some (atomsVal .point ps)) {i : Nat} (hi : i < ps.length) :
    deletePoint e i = .ok (e.set c!"points" (atomsVal .point (ps.eraseIdx i))) := by
  unfold deletePoint
  have h1 : checkPoints e .none = .ok () := by unfold checkPoints; rw [argOr_none hp]; rfl
  have h2 : lookup e c!"points" = .ok (atomsVal .point ps) := by unfold lookup; rw [hp]
  have h3 : checkPointNumber e i = .ok () := by
    unfold checkPointNumber
    rw [h2]
    simp only [Res.ok_bind, atomsVal, List.length_map]
    rw [if_neg (by omega)]
  rw [h1, h3, h2]
  simp only [Res.ok_bind, atomsVal, List.length_map, pyIndex]
  rw [if_pos (by omega), Int.toNat_natCast, if_pos hi]
  simp [List.eraseIdx_map]

theorem holds_set_points {e : Entries} {cm : Option Str} {p : Parsed} (hh : Holds e cm p) (ps : List Kpoint) :
    Holds (e.set c!"points" (atomsVal .point ps)) cm { p with points := some ps } := by
  constructor
  case points => rw [Dict.get?_set, if_pos rfl]; rfl
  all_goals rw [Dict.get?_set, if_neg (by decide)]
  · exact hh.comment
  · exact hh.divisions
  · exact hh.vectors
  · exact hh.shifts
  · exact hh.tetra
  · exact hh.volume
  · exact hh.mode
  · exact hh.centering
  · exact hh.num

/-- C26 is false: deleting any point of any explicit KPOINTS that announces its number of points leaves an object whose text
announces one point more than it lists. -/
theorem C26_violation (prec : Nat) {e : Entries} {cm : Option Str} {p : Parsed} {ps : List Kpoint} (hh : Holds e cm p) (hs : Sound p)
    (hm : p.mode = c!"explicit") (hp : p.points = some ps) (hn : p.num = ps.length) (ht : p.tetra = none) (hv : p.tetraVol = none)
    (hps : ∀ p ∈ ps, p.coord.length = 3) {i : Nat} (hi : i < ps.length) :
    ∃ e' rows, deletePoint e i = .ok e' ∧
      write prec e' = .ok (unlines ((c!"# " ++ cm.getD c!"No comment") :: fmtInt 6 (rows.length + 1) :: c!"Direct" :: rows)) := by
  refine ⟨_, (ps.eraseIdx i).map (fun p => floatLine prec (p.coord ++ [p.weight.getD 1])),
    deletePoint_ok (by rw [hh.points, hp]; rfl) hi, ?_⟩
  · have hs' : Sound { p with points := some (ps.eraseIdx i) } := ⟨.inr (.inl (by simp)), hs.tetra, hs.centering, hs.mode⟩
    rw [write_explicitN prec _ cm _ (ps.eraseIdx i) none (holds_set_points hh _) hs' hm rfl (by simpa using ht) (by simpa using hv)
      (fun q hq => hps q ((List.eraseIdx_sublist ps i).subset hq))]
    unfold explicitLinesN
    simp only [tetraLines, List.append_nil]
    have : p.num = ((ps.eraseIdx i).map (fun p => floatLine prec (p.coord ++ [p.weight.getD 1]))).length + 1 := by
      rw [List.length_map, List.length_eraseIdx_of_lt hi, hn]; omega
    rw [this]; rfl

/-- ... and such a text cannot be read back. -/
theorem C26_violation_unreadable : ∃ e e' text, validate e = .ok () ∧ deletePoint e 0 = .ok e' ∧ write 9 e' = .ok text ∧
    init { string := some text } = .raise .indexError :=
  ⟨Parsed.toEntries { comment := c!"x", num := 2, mode := c!"explicit"
                      points := some [⟨[0, 0, 0], some 1, true⟩, ⟨[1/2, 0, 0], some 1, true⟩] }, _, _,
    by decide +kernel, rfl, rfl, by decide +kernel⟩

theorem mapM'_length {α β} {f : α → Res β} {l : List α} {r : List β} (h : Res.mapM' f l = .ok r) : r.length = l.length :=
  (Res.mapM'_eq_ok.1 h).length_eq.symm

theorem parsePoint_coord {l : Str} {k : Kpoint} (h : parsePoint l = .ok k) : k.coord.length = 3 := by
  unfold parsePoint at h
  simp only [Res.bind_eq_ok] at h
  obtain ⟨_, _, _, _, _, _, _, _, _, _, _, _, h⟩ := h
  split at h
  · simp only [Res.bind_eq_ok] at h
    obtain ⟨_, _, _, _, h⟩ := h
    cases h; rfl
  · cases h; rfl

/-- Reading never makes a tetrahedron without a volume, unless there is no volume line. -/
theorem parse_explicit_count {lines : List Str} {p : Parsed} (h : parse lines = .ok p) (hm : p.mode = c!"explicit") :
    ∃ ps, p.points = some ps ∧ p.num = ps.length ∧ ∀ q ∈ ps, q.coord.length = 3 := by
  unfold parse at h
  simp only [Res.bind_eq_ok] at h
  obtain ⟨l0, _, l1, _, w, _, num, _, l2, _, c, _, p1, h1, p2, h2, h3⟩ := h
  by_cases hl : lowerC c = 'l'
  · exfalso
    simp only [hl, decide_true, if_true] at h3
    unfold parseLineMode at h3
    simp only [Res.bind_eq_ok] at h3
    obtain ⟨_, _, _, _, _, _, h3⟩ := h3
    have hp2 : p2.mode = c!"line" := by
      have hp1 : p1.mode = c!"line" := by
        simp only [hl, decide_true, Bool.not_true, Bool.and_false, Bool.false_eq_true, if_false, if_true] at h1
        cases h1; rfl
      split at h2
      · unfold parseAutomatic at h2
        split at h2
        · cases h2
        · split at h2
          · simp only [Res.bind_eq_ok] at h2
            obtain ⟨_, _, _, _, _, _, h2⟩ := h2
            cases h2; exact hp1
          · split at h2
            · simp only [Res.bind_eq_ok] at h2
              obtain ⟨_, _, _, _, _, _, h2⟩ := h2
              cases h2; exact hp1
            · split at h2
              · cases h2
              · cases h2; exact hp1
      · cases h2; exact hp1
    split at h3
    · simp only [Res.bind_eq_ok] at h3
      obtain ⟨_, _, h3⟩ := h3
      cases h3
      rw [hp2] at hm; revert hm; decide
    · cases h3
  · simp only [hl, decide_false, Bool.false_eq_true, if_false] at h1 h3
    cases h3
    by_cases hn : num ≤ 0
    · exfalso
      simp only [hn, decide_true, Bool.not_true, Bool.false_and, Bool.false_eq_true, if_false, if_true] at h1 h2
      cases h1
      unfold parseAutomatic at h2
      split at h2
      · cases h2
      · split at h2
        · simp only [Res.bind_eq_ok] at h2
          obtain ⟨_, _, _, _, _, _, h2⟩ := h2
          cases h2; revert hm; simp
        · split at h2
          · simp only [Res.bind_eq_ok] at h2
            obtain ⟨_, _, _, _, _, _, h2⟩ := h2
            cases h2; revert hm; simp
          · split at h2
            · cases h2
            · cases h2; revert hm; simp
    · simp only [hn, decide_false, Bool.not_false, Bool.and_self, Bool.false_eq_true, if_false, if_true] at h1 h2
      cases h2
      unfold parseExplicit at h1
      split at h1
      · cases h1
      · simp only [Res.bind_eq_ok] at h1
        obtain ⟨ps, hps, t, _, h1⟩ := h1
        cases h1
        have hlen := mapM'_length hps
        rw [List.length_range] at hlen
        refine ⟨ps, rfl, ?_, ?_⟩
        · show num = _
          rw [hlen]; simp at hn ⊢; omega
        · intro q hq
          obtain ⟨k, _, hk⟩ := Verif.Incar.forall₂_mem_right (Res.mapM'_eq_ok.1 hps) hq
          rw [Res.bind_eq_ok] at hk
          obtain ⟨_, _, hk⟩ := hk
          exact parsePoint_coord hk

/-- C26, partial: every explicit KPOINTS object made from a text (string, file or handler) announces exactly as many points as it
has. Missing: the same after edits, which is false (`C26_violation`). -/
theorem C26_parsed_partial {s : Sources} {text : Str} (hs : FromText text s) {e : Entries} (h : init s = .ok e)
    (hm : e.get? c!"mode" = some (.str c!"explicit")) :
    ∃ ps : List Kpoint, e.get? c!"points" = some (atomsVal .point ps) ∧ e.get? c!"num_kpoints" = some (.int ps.length) := by
  have : ∃ lines p, parse lines = .ok p ∧ e = p.toEntries := by
    have key : ∀ lines, ((fromList lines) >>= fun e => validate e >>= fun _ => Res.ok e) = .ok e →
        ∃ lines p, parse lines = .ok p ∧ e = p.toEntries := by
      intro lines hl
      simp only [Res.bind_eq_ok] at hl
      obtain ⟨e', hf, _, _, he⟩ := hl
      cases he
      unfold fromList at hf
      rw [Res.bind_eq_ok] at hf
      obtain ⟨p, hp, he⟩ := hf
      cases he
      exact ⟨lines, p, hp, rfl⟩
    rcases hs with rfl | rfl | rfl
    · exact key (splitlines text) h
    · refine key (readlines text) ?_
      rw [← h]
      unfold init load fromFile
      simp [guards]
    · refine key (readlines text) ?_
      rw [← h]
      unfold init load fromFile
      simp [guards]
  obtain ⟨lines, p, hp, rfl⟩ := this
  have hm' : p.mode = c!"explicit" := by
    have hh := (holds_toEntries p).mode
    rw [hm] at hh
    simpa using hh.symm
  obtain ⟨ps, h1, h2, _⟩ := parse_explicit_count hp hm'
  have hh := holds_toEntries p
  exact ⟨ps, by rw [hh.points, h1]; rfl, by rw [hh.num, h2]⟩

/-- Non-vacuity. -/
example : ∃ e, init { string := some c!"x\n 2\nDirect\n0 0 0 1\n0.5 0 0 1\n" } = .ok e ∧ e.get? c!"mode" = some (.str c!"explicit") :=
  ⟨_, rfl, by decide +kernel⟩

/-! ### C27 -/

/-- C27 is false for `Kpoints`: `get` of an entry that is present raises `AttributeError`, for every object and entry. -/
theorem C27_kpoints_violation (e : Entries) (tag : Str) (v : Val) (h : e.get? tag = some v) : get e tag = .raise .attributeError := by
  unfold get; rw [h]

/-- C27 (Kpoints), partial: a missing entry gives `None`. Missing: entries that are present, where `get` raises
(`C27_kpoints_violation`). -/
theorem C27_kpoints_partial (e : Entries) (tag : Str) (h : e.get? tag = none) : get e tag = .ok none := by
  unfold get; rw [h]

/-! ### C09 -/

/-- Number of sources given. -/
def Sources.count (s : Sources) : Nat :=
  s.string.isSome.toNat + s.dict.isSome.toNat + s.path.isSome.toNat + s.handler.isSome.toNat

theorem idx_exits {S : Nat → Prop} {α} (l : List α) (i : Nat) : ExitsIn S (idx l i) := by
  unfold idx; exits
theorem toFloat_exits {S : Nat → Prop} (w : Str) : ExitsIn S (toFloat w) := by
  unfold toFloat; exits
theorem toInt_exits {S : Nat → Prop} (w : Str) : ExitsIn S (toInt w) := by
  unfold toInt; exits

theorem parse_exits (lines : List Str) : ExitsIn (fun k => k ≠ 10) (parse lines) := by
  have i1 : ∀ (l : List Str) i, ExitsIn (fun k => k ≠ 10) (idx l i) := fun l i => idx_exits l i
  have i2 : ∀ (l : Str) i, ExitsIn (fun k => k ≠ 10) (idx l i) := fun l i => idx_exits l i
  have i3 : ∀ w, ExitsIn (fun k => k ≠ 10) (toFloat w) := toFloat_exits
  have i4 : ∀ w, ExitsIn (fun k => k ≠ 10) (toInt w) := toInt_exits
  have i5 : ∀ l, ExitsIn (fun k => k ≠ 10) (parsePoint l) := by intro l; unfold parsePoint; exits
  have i6 : ∀ l, ExitsIn (fun k => k ≠ 10) (parseTetraLine l) := by intro l; unfold parseTetraLine; exits
  have i7 : ∀ l n, ExitsIn (fun k => k ≠ 10) (parseTetra l n) := by intro l n; unfold parseTetra; exits
  have i8 : ∀ l p c, ExitsIn (fun k => k ≠ 10) (parseExplicit l p c) := by intro l p c; unfold parseExplicit; exits
  have i9 : ∀ l p c, ExitsIn (fun k => k ≠ 10) (parseAutomatic l p c) := by intro l p c; unfold parseAutomatic; exits
  have i10 : ∀ l, ExitsIn (fun k => k ≠ 10) (parseLinePoint l) := by intro l; unfold parseLinePoint; exits
  have i11 : ∀ l p, ExitsIn (fun k => k ≠ 10) (parseLineMode l p) := by intro l p; unfold parseLineMode; exits
  unfold parse; exits

theorem validate_exits (e : Entries) : ExitsIn (fun k => k ≠ 10) (validate e) := by
  have i1 : ∀ e k, ExitsIn (fun k => k ≠ 10) (lookup e k) := by intro e k; unfold lookup; exits
  have i2 : ∀ e k v, ExitsIn (fun k => k ≠ 10) (argOr e k v) := by intro e k v; unfold argOr; exits
  have i3 : ∀ x, ExitsIn (fun k => k ≠ 10) (checkTetraElem x) := by intro x; unfold checkTetraElem; exits
  unfold validate checkDict checkComment checkPoints checkCentering checkDivisions checkVectors checkShifts checkMode checkNum
    checkTetra checkTetraVolume
  exits

/-- C09 (Kpoints), partial: no source exits 10; a string together with a dictionary or a path exits 10; exactly one source never
exits 10. Missing: the other combinations of several sources, accepted (`C09_kpoints_violation`). -/
theorem C09_kpoints_partial (s : Sources) :
    (s.count = 0 → init s = .exit 10) ∧
    (s.string.isSome → (s.dict.isSome ∨ s.path.isSome) → init s = .exit 10) ∧
    (s.dict.isSome → s.path.isSome → s.handler.isSome → init s = .exit 10) ∧
    (s.count = 1 → init s ≠ .exit 10) := by
  refine ⟨?_, ?_, ?_, ?_⟩
  · obtain ⟨a, b, c, d⟩ := s
    cases a <;> cases b <;> cases c <;> cases d <;> intro h <;> first | rfl | (simp [Sources.count] at h)
  · obtain ⟨a, b, c, d⟩ := s
    cases a <;> cases b <;> cases c <;> intro h1 h2 <;> first | rfl | (simp at h1; done) | (simp at h2; done)
  · obtain ⟨a, b, c, d⟩ := s
    cases a <;> cases b <;> cases c <;> cases d <;> intro h1 h2 h3 <;> first | rfl | (simp at h1; done) | (simp at h2; done) | (simp at h3; done)
  · intro h
    have hg : guards s = false := by
      obtain ⟨a, b, c, d⟩ := s
      revert h
      cases a <;> cases b <;> cases c <;> cases d <;> intro h <;> first | rfl | (simp [Sources.count] at h)
    have hf : ∀ l, ExitsIn (fun k => k ≠ 10) (fromList l) := by
      intro l; have := parse_exits l; unfold fromList; exits
    have hv := validate_exits
    have : ExitsIn (fun k => k ≠ 10) (init s) := by
      unfold init
      rw [hg, if_neg (by decide)]
      unfold load fromFile
      exits
    intro h'; exact this.of 10 h' rfl

/-- C09 (Kpoints) is violated: a dictionary together with a path is accepted (the dictionary is ignored), and so is a string
together with a handler (the file is ignored). -/
theorem C09_kpoints_violation : ∃ s : Sources, s.count = 2 ∧ s.dict.isSome ∧ s.path.isSome ∧ (init s).isOk = true :=
  ⟨{ dict := some [], path := some (some c!"x\n0\nGamma\n2 2 2\n") }, by decide, by decide, by decide, by decide +kernel⟩

theorem C09_kpoints_violation_handler : ∃ s : Sources, s.count = 2 ∧ s.string.isSome ∧ s.handler.isSome ∧ (init s).isOk = true :=
  ⟨{ string := some c!"x\n0\nGamma\n2 2 2\n", handler := some c!"x\n0\nGamma\n2 2 2\n" }, by decide, by decide, by decide, by decide +kernel⟩

end Verif.Kpoints
