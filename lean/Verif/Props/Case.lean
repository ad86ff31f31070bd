import Verif.Lemmas.Case
/-! # C106: upper and lower case -/
set_option autoImplicit false
namespace Verif
open Verif.Kpoints (idx toFloat toInt)

/-- The two texts differ at most in the case of letters. -/
def SameButCase (t u : Str) : Prop := lower t = lower u
instance (t u : Str) : Decidable (SameButCase t u) := by unfold SameButCase; infer_instance

/-- Both calls return, with related results, or both fail in the same way. -/
def Alike {α : Type} (R : α → α → Prop) : Res α → Res α → Prop
  | .ok a, .ok b => R a b
  | .exit c, .exit d => c = d
  | .raise e, .raise f => e = f
  | _, _ => False

/-- Calls whose results agree after a change that keeps the relation are alike. -/
theorem alike_of_normal {α : Type} {R : α → α → Prop} {x y : Res α} (n : α → α) (hR : ∀ a b, n a = n b → R a b)
    (h : (x >>= fun a => .ok (n a)) = (y >>= fun a => .ok (n a))) : Alike R x y := by
  cases x <;> cases y <;> simp_all [Alike]

theorem Alike.bind {α β : Type} {R : α → α → Prop} {S : β → β → Prop} {x y : Res α} {f g : α → Res β} (h : Alike R x y)
    (hf : ∀ a b, R a b → Alike S (f a) (g b)) : Alike S (x >>= f) (y >>= g) := by
  cases x <;> cases y <;> simp_all [Alike]

theorem res_congr {α β : Type} {x : Res α} {f g : α → Res β} (h : ∀ a, f a = g a) : (x >>= f) = (x >>= g) := by rw [funext h]

namespace Kpoints

/-- The comment in lower case. -/
def Parsed.lower (p : Parsed) : Parsed := { p with comment := Verif.lower p.comment }

theorem parsePoint_lower (l : Str) : parsePoint (lower l) = parsePoint l := by
  unfold parsePoint
  simp only [words_lower, idx_map, toFloat_lower, List.length_map]

theorem parseTetraLine_lower (l : Str) : parseTetraLine (lower l) = parseTetraLine l := by
  unfold parseTetraLine
  simp only [words_lower, mapM'_map, toInt_lower, List.length_map]

theorem parseTetra_lower (L : List Str) (n : Nat) : parseTetra (L.map lower) n = parseTetra L n := by
  unfold parseTetra
  simp only [idx_map, idx_lower, strip_lower, words_lower, lowerC_idem, toInt_lower, toFloat_lower, List.length_map, parseTetraLine_lower]

theorem parseExplicit_lower (L : List Str) (p : Parsed) (c : Char) :
    parseExplicit (L.map lower) p.lower (lowerC c) = (parseExplicit L p c >>= fun q => .ok q.lower) := by
  unfold parseExplicit
  simp only [idx_map, lowerC_idem, parsePoint_lower, parseTetra_lower]
  split
  · rfl
  · simp only [bind_assoc]; rfl

theorem parseAutomatic_lower (L : List Str) (p : Parsed) (c : Char) :
    parseAutomatic (L.map lower) p.lower (lowerC c) = (parseAutomatic L p c >>= fun q => .ok q.lower) := by
  unfold parseAutomatic
  simp only [idx_map, lowerC_idem, words_lower, mapM'_map, toInt_lower, toFloat_lower, List.length_map]
  split
  · rfl
  · split
    · simp only [bind_assoc]; rfl
    · split
      · simp only [bind_assoc]; rfl
      · split <;> rfl

theorem parseLinePoint_lower (l : Str) : parseLinePoint (lower l) = parseLinePoint l := by
  unfold parseLinePoint
  have : lower l = ['\n'] ↔ l = ['\n'] := by
    cases l with
    | nil => simp
    | cons x xs =>
      simp only [lower_cons, List.cons.injEq, lower_eq_nil, lowerC_eq_iff (x := '\n') (by decide)]
  simp only [this, words_lower, ← List.map_take, mapM'_map, toFloat_lower]

theorem parseLineMode_lower (L : List Str) (p : Parsed) :
    parseLineMode (L.map lower) p.lower = (parseLineMode L p >>= fun q => .ok q.lower) := by
  unfold parseLineMode
  simp only [idx_map, idx_lower, lowerC_idem, words_lower, ← List.map_drop, mapM'_map, parseLinePoint_lower, bind_assoc]
  congr; funext l3; congr; funext w; congr; funext c
  split
  · simp only [bind_assoc]; rfl
  · rfl

theorem comment_lower (l : Str) : strip ((lower l).filter (· != '#')) = lower (strip (l.filter (· != '#'))) := by
  rw [filter_lower (fun c => by rw [bne, bne, lowerC_beq (by decide)]), strip_lower]

/-- The text in lower case has the same content, its comment in lower case. -/
theorem parse_lower (L : List Str) : parse (L.map lower) = (parse L >>= fun p => .ok p.lower) := by
  unfold parse
  simp only [idx_map, idx_lower, strip_lower, words_lower, toInt_lower, lowerC_idem, bind_assoc]
  refine res_congr fun l0 => res_congr fun l1 => res_congr fun w => res_congr fun num => res_congr fun l2 => res_congr fun c => ?_
  rw [comment_lower]
  generalize hp : ({ comment := strip (l0.filter (· != '#')), num := num
                     mode := if decide (lowerC c = 'l') then c!"line" else if decide (num ≤ 0) then c!"automatic" else c!"explicit" } : Parsed) = p
  have hp' : ({ comment := lower (strip (l0.filter (· != '#'))), num := num
                mode := if decide (lowerC c = 'l') then c!"line" else if decide (num ≤ 0) then c!"automatic" else c!"explicit" } : Parsed) =
      p.lower := by subst hp; rfl
  rw [hp']
  clear hp hp'
  have h1 : (if (!decide (num ≤ 0) && !decide (lowerC c = 'l')) = true then parseExplicit (L.map lower) p.lower (lowerC c) else Res.ok p.lower) =
      ((if (!decide (num ≤ 0) && !decide (lowerC c = 'l')) = true then parseExplicit L p c else Res.ok p) >>= fun q => .ok q.lower) := by
    split
    · exact parseExplicit_lower L p c
    · rfl
  rw [h1, bind_assoc]
  refine res_congr fun q => ?_
  have h2 : (if decide (num ≤ 0) = true then parseAutomatic (L.map lower) q.lower (lowerC c) else Res.ok q.lower) =
      ((if decide (num ≤ 0) = true then parseAutomatic L q c else Res.ok q) >>= fun q => .ok q.lower) := by
    split
    · exact parseAutomatic_lower L q c
    · rfl
  rw [Res.ok_bind, h2, bind_assoc]
  refine res_congr fun r => ?_
  rw [Res.ok_bind]
  split
  · exact parseLineMode_lower L r
  · rfl

/-- The same entries, but for the case of letters in the comment. -/
def SameEntries (e e' : Entries) : Prop :=
  e.map Prod.fst = e'.map Prod.fst ∧ (∀ k : Str, k ≠ c!"comment" → e.get? k = e'.get? k) ∧
  ∃ c c' : Str, e.get? c!"comment" = some (.str c) ∧ e'.get? c!"comment" = some (.str c') ∧ SameButCase c c'

theorem sameEntries_of_lower {p q : Parsed} (h : p.lower = q.lower) : SameEntries p.toEntries q.toEntries := by
  obtain ⟨c, n, m, d, v, s, ps, t, tv, ce⟩ := p
  obtain ⟨c', n', m', d', v', s', ps', t', tv', ce'⟩ := q
  simp only [Parsed.lower, Parsed.mk.injEq] at h
  obtain ⟨hc, rfl, rfl, rfl, rfl, rfl, rfl, rfl, rfl, rfl⟩ := h
  refine ⟨rfl, ?_, c, c', rfl, rfl, hc⟩
  intro k hk
  have hk' : ¬ c!"comment" = k := fun h => hk h.symm
  simp only [Parsed.toEntries, Dict.get?, if_neg hk']

theorem validate_lower (p : Parsed) : validate p.lower.toEntries = validate p.toEntries := by
  rfl

theorem loaded_lower {L M : List Str} (h : L.map lower = M.map lower) :
    Alike SameEntries (fromList L >>= fun e => validate e >>= fun _ => Res.ok e) (fromList M >>= fun e => validate e >>= fun _ => Res.ok e) := by
  have h1 : Alike (fun p q : Parsed => p.lower = q.lower) (parse L) (parse M) :=
    alike_of_normal Parsed.lower (fun _ _ h => h) (by rw [← parse_lower, ← parse_lower, h])
  unfold fromList
  rw [bind_assoc, bind_assoc]
  refine h1.bind fun p q hpq => ?_
  rw [Res.ok_bind, Res.ok_bind]
  have hv : validate p.toEntries = validate q.toEntries := by rw [← validate_lower p, ← validate_lower q, hpq]
  rw [hv]
  cases validate q.toEntries with
  | ok => exact sameEntries_of_lower hpq
  | exit => exact rfl
  | raise => exact rfl

/-- C106 for KPOINTS: texts that differ only in the case of letters are read alike, from a file as from a string: the same entries but for the case
of letters in the comment, or the same refusal. -/
theorem C106_kpoints (t u : Str) (h : SameButCase t u) :
    Alike SameEntries (init { handler := some t }) (init { handler := some u }) ∧
    Alike SameEntries (init { path := some (some t) }) (init { path := some (some u) }) ∧
    Alike SameEntries (init { string := some t }) (init { string := some u }) := by
  have hr : (readlines t).map lower = (readlines u).map lower := by rw [← readlines_lower, ← readlines_lower, h]
  have hs : (splitlines t).map lower = (splitlines u).map lower := by rw [← splitlines_lower, ← splitlines_lower, h]
  refine ⟨?_, ?_, loaded_lower hs⟩
  · have := loaded_lower hr
    unfold init load fromFile
    simpa [guards] using this
  · have := loaded_lower hr
    unfold init load fromFile
    simpa [guards] using this

example : SameButCase c!"Grid\n0\nGamma\n4 4 4\n" c!"grid\n0\ngAMMA\n4 4 4\n" ∧ ∃ e, init { handler := some c!"Grid\n0\nGamma\n4 4 4\n" } = .ok e :=
  ⟨by decide +kernel, _, rfl⟩

end Kpoints

namespace Poscar

/-- The comment and the species in lower case. -/
def Header.lower (h : Header) : Header := { h with comment := Verif.lower h.comment, spec := h.spec.map Verif.lower }

theorem readRow_lower (l : Str) : readRow (lower l) = readRow l := by
  unfold readRow
  simp only [words_lower, mapM'_map, toFloat_lower]

theorem readHeader_lower (L : List Str) : readHeader (L.map lower) = (readHeader L >>= fun h => .ok h.lower) := by
  unfold readHeader
  simp only [idx_map, idx_lower, words_lower, toFloat_lower, isNumbers_lower, lowerC_idem, readRow_lower, mapM'_map, toInt_lower, bind_assoc]
  refine res_congr fun l0 => res_congr fun l5 => res_congr fun l1 => res_congr fun w => res_congr fun sc => ?_
  split
  · rfl
  · split
    · rfl
    · simp only [bind_assoc]
      refine res_congr fun l2 => res_congr fun a => res_congr fun l3 => res_congr fun b => res_congr fun l4 => res_congr fun c =>
        res_congr fun cell => res_congr fun l6 => res_congr fun at_ => res_congr fun l7 => res_congr fun c7 => ?_
      rw [Kpoints.comment_lower]
      split
      · simp only [bind_assoc]; rfl
      · rfl

theorem readVec_lower (l : Str) : readVec (lower l) = readVec l := by
  unfold readVec
  simp only [words_lower, idx_map, toFloat_lower]

theorem readFlags_lower (l : Str) (b : Bool) : readFlags (lower l) b = readFlags l b := by
  unfold readFlags readFlag
  simp only [words_lower, idx_map, lower_idem]

theorem readPos_lower (h : Header) (l : Str) : readPos h.lower (lower l) = readPos h l := by
  unfold readPos
  rw [readVec_lower]; rfl

theorem readSites_lower (h : Header) (L : List Str) : ∀ (n i slot : Nat) (index : Int),
    readSites h.lower (L.map lower) n i slot index =
      (readSites h L n i slot index >>= fun rs => .ok (rs.map fun r => { r with specie := lower r.specie }))
  | 0, _, _, _ => rfl
  | n + 1, i, slot, index => by
    rw [readSites, readSites]
    simp only [bind_assoc]
    refine res_congr fun a => ?_
    show (idx (h.spec.map lower) _ >>= _) = _
    rw [idx_map]
    refine res_congr fun s => ?_
    show (idx (L.map lower) (i + h.loopmax) >>= _) = _
    rw [idx_map]
    refine res_congr fun l => ?_
    rw [readPos_lower]
    refine res_congr fun v => ?_
    rw [readFlags_lower]
    refine res_congr fun f => ?_
    rw [readSites_lower h L n (i + 1)]
    simp only [bind_assoc, Res.ok_bind]
    rfl

theorem isBlank_lower (l : Str) : isBlank (lower l) = isBlank l := by
  unfold isBlank
  rw [filter_lower (fun c => by rw [bne, bne, lowerC_beq (by decide)])]
  rw [Bool.eq_iff_iff, beq_iff_eq, beq_iff_eq]
  generalize l.filter (· != ' ') = s
  cases s with
  | nil => simp
  | cons x xs => simp only [lower_cons, List.cons.injEq, lower_eq_nil, lowerC_eq_iff (x := '\n') (by decide)]

theorem readTail_lower (L : List Str) (p : Nat) : readTail (L.map lower) p = readTail L p := by
  unfold readTail
  simp only [idx_map, idx_lower, words_lower, isBlank_lower, isNumber_lower, lowerC_idem, List.length_map]

theorem readVecs_lower (L : List Str) (p n : Nat) (conv : Vec → Res Vec) : readVecs (L.map lower) p n conv = readVecs L p n conv := by
  unfold readVecs
  simp only [idx_map, readVec_lower]

theorem readPredAfter_lower (L : List Str) (p n : Nat) : readPredAfter (L.map lower) p n = readPredAfter L p n := by
  unfold readPredAfter
  simp only [idx_map, words_lower, isBlank_lower, isNumber_lower, List.length_map, readVecs_lower]

theorem assemble_lower (rs : List Raw) (v p : Option (List Vec)) :
    assemble (rs.map fun r => { r with specie := lower r.specie }) v p = assemble rs v p := by
  unfold assemble
  rw [List.zipIdx_map, List.map_map]
  apply List.map_congr_left
  rintro ⟨r, i⟩ -
  simp [Site.new, lower_idem]

/-- The text in lower case has the same content, its comment in lower case. -/
theorem parse_lower (L : List Str) : parse (L.map lower) = (parse L >>= fun p => .ok { p with comment := lower p.comment }) := by
  unfold parse
  rw [readHeader_lower, bind_assoc, bind_assoc]
  refine res_congr fun h => ?_
  rw [Res.ok_bind]
  by_cases hn : h.atoms.sum < 0
  · have e1 : h.lower.atoms.sum < 0 := hn
    simp only [if_pos e1, if_pos hn]; rfl
  · have e1 : ¬ h.lower.atoms.sum < 0 := hn
    simp only [if_neg e1, if_neg hn]
    simp only [readSites_lower, readTail_lower, readVecs_lower, readPredAfter_lower, bind_assoc, Res.ok_bind, assemble_lower]
    show (readSites h L h.atoms.sum.toNat 0 0 1 >>= _) = _
    refine res_congr fun rs => ?_
    show (readTail L (h.atoms.sum.toNat + h.loopmax) >>= _) = _
    refine res_congr fun t => ?_
    split
    · simp only [bind_assoc]; rfl
    · split
      · simp only [bind_assoc]; rfl
      · rfl

/-- The same entries, but for the case of letters in the comment. -/
def SameEntries (e e' : Entries) : Prop :=
  e.map Prod.fst = e'.map Prod.fst ∧ (∀ k : Str, k ≠ c!"comment" → e.get? k = e'.get? k) ∧
  ∃ c c' : Str, e.get? c!"comment" = some (.str c) ∧ e'.get? c!"comment" = some (.str c') ∧ SameButCase c c'

theorem loaded_lower {L M : List Str} (h : L.map lower = M.map lower) :
    Alike SameEntries (fromList L >>= fun d => fromDict d >>= fun e => validate e >>= fun _ => Res.ok e)
      (fromList M >>= fun d => fromDict d >>= fun e => validate e >>= fun _ => Res.ok e) := by
  have h1 : Alike (fun p q : Parsed => { p with comment := lower p.comment } = { q with comment := lower q.comment }) (parse L) (parse M) :=
    alike_of_normal (fun p => { p with comment := lower p.comment }) (fun _ _ h => h) (by rw [← parse_lower, ← parse_lower, h])
  unfold fromList
  rw [bind_assoc, bind_assoc]
  refine h1.bind fun p q hpq => ?_
  rw [Res.ok_bind, Res.ok_bind]
  obtain ⟨c, cell, ss⟩ := p
  obtain ⟨c', cell', ss'⟩ := q
  simp only [Parsed.mk.injEq] at hpq
  obtain ⟨hc, rfl, rfl⟩ := hpq
  have hd : ∀ k : Str, fromDict (Parsed.toEntries ⟨k, cell, ss⟩) = (Res.mapM' (convertElem cell) (ss.map .site) >>= fun l' =>
      .ok [(c!"comment", .str k), (c!"unitcell", .cell cell), (c!"sites", .sites l')]) := fun k => rfl
  rw [hd, hd]
  cases Res.mapM' (convertElem cell) (ss.map .site) with
  | exit => exact rfl
  | raise => exact rfl
  | ok l' =>
    simp only [Res.ok_bind]
    have hv : validate [(c!"comment", .str c), (c!"unitcell", .cell cell), (c!"sites", .sites l')] =
      validate [(c!"comment", .str c'), (c!"unitcell", .cell cell), (c!"sites", .sites l')] := rfl
    rw [hv]
    cases validate [(c!"comment", .str c'), (c!"unitcell", .cell cell), (c!"sites", .sites l')] with
    | exit => exact rfl
    | raise => exact rfl
    | ok =>
      refine ⟨rfl, ?_, c, c', rfl, rfl, hc⟩
      intro k hk
      have hk' : ¬ c!"comment" = k := fun h => hk h.symm
      simp only [Dict.get?, if_neg hk']

/-- C106 for POSCAR: texts that differ only in the case of letters are read alike, from a file as from a string: the same cell and sites, the
comment up to the case of letters, or the same refusal. -/
theorem C106_poscar (t u : Str) (h : SameButCase t u) :
    Alike SameEntries (init { handler := some t }) (init { handler := some u }) ∧
    Alike SameEntries (init { path := some (some t) }) (init { path := some (some u) }) ∧
    Alike SameEntries (init { string := some t }) (init { string := some u }) := by
  have hr : (readlines t).map lower = (readlines u).map lower := by rw [← readlines_lower, ← readlines_lower, h]
  have hs : (splitlinesKeep t).map lower = (splitlinesKeep u).map lower := by rw [← splitlinesKeep_lower, ← splitlinesKeep_lower, h]
  refine ⟨?_, ?_, loaded_lower hs⟩
  · have := loaded_lower hr
    unfold init load fromFile
    simpa [guards] using this
  · have := loaded_lower hr
    unfold init load fromFile
    simpa [guards] using this

example : SameButCase c!"Si\n1\n1 0 0\n0 1 0\n0 0 1\nSi\n1\nDirect\n0 0 0\n" c!"SI\n1\n1 0 0\n0 1 0\n0 0 1\nsI\n1\ndirect\n0 0 0\n" ∧
    (init { handler := some c!"Si\n1\n1 0 0\n0 1 0\n0 0 1\nSi\n1\nDirect\n0 0 0\n" }).isOk = true :=
  ⟨by decide +kernel, by decide +kernel⟩

end Poscar
end Verif
