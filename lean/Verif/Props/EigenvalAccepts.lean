import Verif.Props.SpecialEigenval
import Verif.Props.Exceptions
import Verif.Props.ExitCodesRead
import Verif.Lemmas.Ok
/-! # C149: which EIGENVAL files are accepted -/
set_option autoImplicit false
namespace Verif.EigenvalFull
open Verif Verif.Utils
open Verif.Kpoints (idx toFloat toInt)
open Verif.Doscar (unpack cartesianOf)
open Verif.Eigenval (index size blocks runs pointBlocks Concerns index_ok solid solid_blocks Ints ints_many size_ok Lf bw splitEmpty skip bw_line
  bw_cons bw_prefix splitEmpty_prefix skipBlank_join splitEmpty_ne_nil skip_suffix skip_head skip_ne_nil skip_length skip_mem consStr isNl isNl_nl skipBlank)

/-! ### specification -/

/-- The word is a number, perhaps an infinite one or NaN. -/
def IsNumber (w : Str) : Prop := (pyFloat w).isSome

/-- A line of a band: the number of a band (one up to zero counts from the last), then as many numbers as there are spins, or only one; what comes
behind these is not read. -/
def BandLine (ns nb : Nat) (line : List Str) : Prop :=
  (∃ b < nb, Concerns nb line b) ∧ (∀ w ∈ (line.drop 1).take ns, IsNumber w) ∧
    (((line.drop 1).take ns).length = ns ∨ ((line.drop 1).take ns).length = 1)

/-- The lines of a k-point: four numbers (or only one), then lines of bands. -/
def PointBlock (ns nb : Nat) (block : List (List Str)) : Prop :=
  ∃ first rest, block = first :: rest ∧ (∀ w ∈ first, IsNumber w) ∧ (first.length = 4 ∨ first.length = 1) ∧ ∀ line ∈ rest, BandLine ns nb line

/-- The first six lines: four integers, the last of them the number of spins; two lines of numbers; one word; any line; and three integers, the
last two the numbers of k-points and bands. -/
def Header (text : Str) (ns nk nb : Nat) : Prop :=
  ∃ l0 l1 l2 l3 l4 l5 : Str, (readlines text).take 6 = [l0, l1, l2, l3, l4, l5] ∧
    (∃ a b c : Int, Ints l0 [a, b, c, ns]) ∧ (∀ w ∈ words l1, IsNumber w) ∧ (∀ w ∈ words l2, IsNumber w) ∧ (words l3).length = 1 ∧
    ∃ s : Int, Ints l5 [s, nk, nb]

/-- What is between the line breaks behind the sixth line (a line break at the very end has an empty piece behind it). -/
def pieces (text : Str) : List Str := splitOn '\n' ((readlines text).drop 6).flatten

/-- No surplus blank lines: some piece is not blank, neither the first two nor the last two are both blank. -/
def NoSurplus (L : List Str) : Prop :=
  (∃ l ∈ L, words l ≠ []) ∧ (∀ a b r, L = a :: b :: r → words a ≠ [] ∨ words b ≠ []) ∧ ∀ r a b, L = r ++ [a, b] → words a ≠ [] ∨ words b ≠ []

/-- All of it. -/
def Accepted (text : Str) : Prop :=
  ∃ ns nk nb, Header text ns nk nb ∧ NoSurplus (pieces text) ∧ (pointBlocks text).length ≤ nk ∧ ∀ b ∈ pointBlocks text, PointBlock ns nb b

/-! ### numbers -/

theorem ok_toNum (w : Str) : Ok (toNum w) ↔ IsNumber w := by
  unfold Ok toNum IsNumber
  cases pyFloat w with
  | none => simp
  | some x => cases x <;> simp

theorem ok_lineToType {α : Type} (conv : Str → Res α) (l : Str) : Ok (lineToType conv l) ↔ ∀ w ∈ words l, Ok (conv w) := by
  rw [← ok_mapM']
  unfold lineToType
  cases Res.mapM' conv (words l) with
  | ok as =>
    match as with
    | [] => simp [ok_ok]
    | [_] => simp [ok_ok]
    | _ :: _ :: _ => simp [ok_ok]
  | exit c => simp [Ok]
  | raise e => simp [Ok]

theorem ok_broadcast (n : Nat) (vs : List Num) : Ok (broadcast n vs) ↔ vs.length = n ∨ vs.length = 1 := by
  unfold broadcast
  split
  · rename_i h; simp [ok_ok, h]
  · rename_i h
    match vs with
    | [] => simpa [Ok] using h
    | [_] => simp [ok_ok]
    | _ :: _ :: _ => simpa [Ok] using h

theorem ok_index (n : Nat) (i : Int) : Ok (index n (i - 1)) ↔ ∃ b < n, i = b + 1 ∨ i ≤ 0 ∧ i + n = b + 1 := by
  unfold index
  split
  · rename_i h
    simp only [ok_ok, true_iff]
    exact ⟨(i - 1).toNat, by omega, .inl (by omega)⟩
  · split
    · rename_i h1 h2
      simp only [ok_ok, true_iff]
      exact ⟨(i - 1 + n).toNat, by omega, .inr (by omega)⟩
    · rename_i h1 h2
      constructor
      · rintro ⟨_, h⟩; cases h
      · rintro ⟨b, hb, h⟩; omega

theorem ok_readBand (ns nb k : Nat) (e : Values) (line : List Str) : Ok (readBand ns nb k e line) ↔ BandLine ns nb line := by
  unfold readBand
  rw [ok_bind]
  have tail : Ok (Res.mapM' toNum ((line.drop 1).take ns) >>= fun vs => broadcast ns vs) ↔
      (∀ w ∈ (line.drop 1).take ns, IsNumber w) ∧ (((line.drop 1).take ns).length = ns ∨ ((line.drop 1).take ns).length = 1) := by
    rw [ok_bind_const (P := ((line.drop 1).take ns).length = ns ∨ ((line.drop 1).take ns).length = 1), ok_mapM']
    · simp only [ok_toNum]
    · intro vs hvs
      rw [ok_broadcast, Kpoints.mapM'_length hvs]
  have tail' : ∀ b, Ok (Res.mapM' toNum ((line.drop 1).take ns) >>= fun vs => broadcast ns vs >>= fun v => Res.ok (assign e k b v)) ↔
      Ok (Res.mapM' toNum ((line.drop 1).take ns) >>= fun vs => broadcast ns vs) := by
    intro b
    rw [ok_bind, ok_bind]
    have : ∀ vs, Ok (broadcast ns vs >>= fun v => Res.ok (assign e k b v)) ↔ Ok (broadcast ns vs) := by
      intro vs
      rw [ok_bind_const (P := True) (fun _ _ => by simp [ok_ok]), and_true]
    simp only [this]
  constructor
  · rintro ⟨w, hw, h⟩
    obtain ⟨n, hn, h⟩ := ok_bind.1 h
    obtain ⟨b, hb, h⟩ := ok_bind.1 h
    obtain ⟨h1, h2⟩ := tail.1 ((tail' b).1 h)
    obtain ⟨q1, q2⟩ := index_ok hb
    refine ⟨⟨b, q1, w, n, by rw [List.head?_eq_getElem?]; exact idx_eq.1 hw, ?_, by omega⟩, h1, h2⟩
    unfold toInt at hn
    cases hp : pyInt w with
    | none => rw [hp] at hn; cases hn
    | some m => rw [hp] at hn; cases hn; rfl
  · rintro ⟨⟨b, hb, w, n, hw, hn, hc⟩, h1, h2⟩
    have hi : toInt w = .ok n := by unfold toInt; rw [hn]
    obtain ⟨b', hb'⟩ := (ok_index nb n).2 ⟨b, hb, hc⟩
    refine ⟨w, idx_eq.2 (by rw [← List.head?_eq_getElem?]; exact hw), ok_bind.2 ⟨n, hi, ok_bind.2 ⟨b', hb', (tail' b').2 (tail.2 ⟨h1, h2⟩)⟩⟩⟩

theorem ok_readBlock (ns nb nk : Nat) (a : Arrays) (ha : a.kpoints.length = nk) (b : List (List Str)) (k : Nat) :
    Ok (readBlock ns nb a (b, k)) ↔ PointBlock ns nb b ∧ k < nk := by
  unfold readBlock PointBlock
  cases b with
  | nil => simp [Ok]
  | cons first rest =>
    simp only [List.cons.injEq]
    have fold : ∀ e : Values, Ok (Res.foldlM' (readBand ns nb k) e rest) ↔ ∀ line ∈ rest, BandLine ns nb line := fun e =>
      ok_foldlM' rest (I := fun _ => True) (fun _ _ _ _ _ _ => trivial) (fun e l _ _ => ok_readBand ns nb k e l) e trivial
    rw [ok_bind_const (P := k < nk ∧ (first.length = 4 ∨ first.length = 1) ∧ ∀ line ∈ rest, BandLine ns nb line), ok_mapM']
    · simp only [ok_toNum]
      constructor
      · rintro ⟨h1, h2, h3, h4⟩; exact ⟨⟨first, rest, ⟨rfl, rfl⟩, h1, h3, h4⟩, h2⟩
      · rintro ⟨⟨_, _, ⟨rfl, rfl⟩, h1, h3, h4⟩, h2⟩; exact ⟨h1, h2, h3, h4⟩
    · intro kpi hk
      rw [ha]
      split
      · rename_i hlt
        rw [ok_bind_const (P := ∀ line ∈ rest, BandLine ns nb line), ok_broadcast, Kpoints.mapM'_length hk]
        · simp [hlt]
        · intro kp _
          rw [ok_bind_const (P := True) (fun _ _ => by simp [ok_ok]), fold, and_true]
      · rename_i hlt
        simp [Ok, hlt]

theorem readBlock_length {ns nb : Nat} {a a' : Arrays} {p : List (List Str) × Nat} (h : readBlock ns nb a p = .ok a') :
    a'.kpoints.length = a.kpoints.length := by
  unfold readBlock at h
  split at h
  · cases h
  · obtain ⟨_, _, h⟩ := Res.bind_eq_ok.1 h
    split at h
    · obtain ⟨_, _, h⟩ := Res.bind_eq_ok.1 h
      obtain ⟨_, _, h⟩ := Res.bind_eq_ok.1 h
      cases h
      simp
    · cases h

theorem ok_blocks (ns nb nk : Nat) (bs : List (List (List Str))) (a : Arrays) (ha : a.kpoints.length = nk) :
    Ok (Res.foldlM' (readBlock ns nb) a bs.zipIdx) ↔ bs.length ≤ nk ∧ ∀ b ∈ bs, PointBlock ns nb b := by
  rw [ok_foldlM' (P := fun p : List (List Str) × Nat => PointBlock ns nb p.1 ∧ p.2 < nk) (I := fun a => a.kpoints.length = nk) bs.zipIdx
    (fun a p a' i _ h => by rw [readBlock_length h]; exact i) (fun a p i _ => ok_readBlock ns nb nk a i p.1 p.2) a ha]
  constructor
  · intro h
    constructor
    · by_contra hlt
      have hl : 0 < bs.length := by omega
      have hm : (bs[bs.length - 1]'(by omega), bs.length - 1) ∈ bs.zipIdx := by
        rw [List.mem_zipIdx_iff_getElem?]
        simp
      have := (h _ hm).2
      simp only at this
      omega
    · intro b hb
      obtain ⟨i, hi, rfl⟩ := List.getElem_of_mem hb
      exact (h (bs[i], i) (by rw [List.mem_zipIdx_iff_getElem?]; simp [hi])).1
  · rintro ⟨h1, h2⟩ ⟨b, i⟩ hp
    rw [List.mem_zipIdx_iff_getElem?] at hp
    obtain ⟨hi, hb⟩ := List.getElem?_eq_some_iff.1 hp
    simp only at hi hb ⊢
    exact ⟨h2 _ (hb ▸ List.getElem_mem _), by omega⟩

/-! ### blank lines -/

theorem bw_head : ∀ (x : Str) (xs : List Str) (n : Nat), (∀ l ∈ x :: xs, Lf l) → words x ≠ [] → (join ['\n'] (x :: xs)).length ≤ n →
    ∀ w ws, splitEmpty n (join ['\n'] (x :: xs)) = w :: ws → bw w ≠ [] := by
  intro x xs n hf hx hn w ws hs
  have hl := hf x (by simp)
  cases xs with
  | nil =>
    simp only [join] at hs hn
    have h1 := splitEmpty_prefix hl [] (n - x.length)
    rw [List.append_nil, Nat.add_sub_cancel' hn] at h1
    have h2 : splitEmpty (n - x.length) [] = [[]] := by cases n - x.length <;> rfl
    rw [h1, h2] at hs
    simp only [consStr, List.append_nil, List.cons.injEq] at hs
    rw [← hs.1, bw_line hl, if_neg hx]; simp
  | cons y ys =>
    have e : join ['\n'] (x :: y :: ys) = x ++ '\n' :: join ['\n'] (y :: ys) := by simp [join]
    rw [e] at hn hs
    have hsp := splitEmpty_prefix hl ('\n' :: join ['\n'] (y :: ys)) (n - x.length - 1 + 1)
    have hlen : x.length + 1 + (join ['\n'] (y :: ys)).length ≤ n := by simp at hn; omega
    rw [show x.length + (n - x.length - 1 + 1) = n by omega, splitEmpty, if_pos isNl_nl] at hsp
    rw [hsp] at hs
    cases hk : skipBlank (join ['\n'] (y :: ys)) with
    | some r =>
      rw [hk] at hs
      simp only [consStr, List.append_nil, List.cons.injEq] at hs
      rw [← hs.1, bw_line hl, if_neg hx]; simp
    | none =>
      rw [hk] at hs
      simp only at hs
      cases hq : splitEmpty (n - x.length - 1) (join ['\n'] (y :: ys)) with
      | nil => exact absurd hq (splitEmpty_ne_nil _ _)
      | cons v vs =>
        rw [hq] at hs
        simp only [consHead, consStr, List.cons.injEq] at hs
        rw [← hs.1, Ne, bw_prefix _ hl]
        exact fun h => hx h.1

theorem noSurplus_of_solid : ∀ (k : Nat) (L : List Str) (n : Nat), L.length ≤ k → L ≠ [] → (∀ l ∈ L, Lf l) → (join ['\n'] L).length ≤ n →
    (∀ p ∈ splitEmpty n (join ['\n'] L), bw p ≠ []) → NoSurplus L
  | 0, L, _, hk, h0, _, _, _ => by cases L <;> simp_all
  | k + 1, [], _, _, h0, _, _, _ => absurd rfl h0
  | k + 1, [l], n, _, _, hf, hn, hp => by
    have hl := hf l (by simp)
    simp only [join] at hn hp
    have := splitEmpty_prefix hl [] (n - l.length)
    rw [List.append_nil, Nat.add_sub_cancel' hn] at this
    rw [this] at hp
    have hs : splitEmpty (n - l.length) [] = [[]] := by cases n - l.length <;> rfl
    rw [hs] at hp
    have := hp l (by simp [consStr])
    rw [bw_line hl] at this
    have hw : words l ≠ [] := by
      intro h; simp [h] at this
    refine ⟨⟨l, by simp, hw⟩, fun a b r h => by simp at h, fun r a b h => ?_⟩
    have := congrArg List.length h
    simp at this
  | k + 1, l :: x :: xs, n, hk, _, hf, hn, hp => by
    have hl := hf l (by simp)
    have hx := hf x (by simp)
    have hfr : ∀ y ∈ x :: xs, Lf y := fun y hy => hf y (by simp [hy])
    have e : join ['\n'] (l :: x :: xs) = l ++ '\n' :: join ['\n'] (x :: xs) := by simp [join]
    rw [e] at hn hp
    have hlen : l.length + 1 + (join ['\n'] (x :: xs)).length ≤ n := by simp at hn; omega
    have hsp := splitEmpty_prefix hl ('\n' :: join ['\n'] (x :: xs)) (n - l.length - 1 + 1)
    rw [show l.length + (n - l.length - 1 + 1) = n by omega, splitEmpty, if_pos isNl_nl, skipBlank_join (x :: xs) hfr (by simp)] at hsp
    have hlen' : (join ['\n'] (x :: xs)).length ≤ n - l.length - 1 := by omega
    rw [hsp] at hp
    by_cases hxw : words x = []
    · cases xs with
      | nil =>
        simp only [join] at hp hlen'
        have h1 := splitEmpty_prefix hx [] (n - l.length - 1 - x.length)
        rw [List.append_nil, Nat.add_sub_cancel' hlen'] at h1
        have h2 : splitEmpty (n - l.length - 1 - x.length) [] = [[]] := by cases n - l.length - 1 - x.length <;> rfl
        rw [h1, h2] at hp
        have := hp (l ++ '\n' :: x) (by simp [consStr, consHead])
        rw [Ne, bw_prefix _ hl, bw_line hx, if_pos hxw] at this
        have hlw : words l ≠ [] := fun h => this ⟨h, rfl⟩
        refine ⟨⟨l, by simp, hlw⟩, fun a b r h => ?_, fun r a b h => ?_⟩
        · injection h with h1 _; exact .inl (h1 ▸ hlw)
        · cases r with
          | nil => simp at h; exact .inl (h.1 ▸ hlw)
          | cons c cs =>
            have := congrArg List.length h
            simp at this
      | cons y ys =>
        simp only [hxw, if_true, consStr, List.append_nil] at hp
        have hlw : words l ≠ [] := by
          have := hp l (by simp)
          rw [bw_line hl] at this
          intro h; simp [h] at this
        have hsl : (join ['\n'] (skip (x :: y :: ys))).length ≤ n - l.length - 1 := by
          have : ∀ M : List Str, (join ['\n'] (skip M)).length ≤ (join ['\n'] M).length := by
            intro M
            induction M with
            | nil => simp [skip]
            | cons a as ih =>
              cases as with
              | nil => simp [skip]
              | cons b bs =>
                unfold skip
                split
                · refine le_trans ih ?_
                  simp only [join, List.length_append]
                  omega
                · exact le_refl _
          exact le_trans (this _) (by omega)
        obtain ⟨pre, hpre, hblank⟩ := skip_suffix (x :: y :: ys)
        obtain ⟨i1, _, i3⟩ := noSurplus_of_solid k (skip (x :: y :: ys)) (n - l.length - 1)
          (le_trans (skip_length _) (by simp at hk ⊢; omega)) (skip_ne_nil (by simp)) (fun z hz => hfr z (skip_mem hz)) hsl
          (fun p h => hp p (List.mem_cons_of_mem _ h))
        refine ⟨⟨l, by simp, hlw⟩, fun a b r h => ?_, fun r a b h => ?_⟩
        · injection h with h1 _; exact .inl (h1 ▸ hlw)
        · by_cases hb : words b = []
          · left
            intro ha
            rw [hpre, ← List.cons_append] at h
            rcases List.eq_nil_or_concat (skip (x :: y :: ys)) with h0 | ⟨q, z, hq⟩
            · exact absurd h0 (skip_ne_nil (by simp))
            · rw [List.concat_eq_append] at hq
              rw [hq] at h i1 i3
              have h' : (l :: pre ++ q) ++ [z] = (r ++ [a]) ++ [b] := by simpa using h
              obtain ⟨h1, h2⟩ := List.append_inj' h' rfl
              rcases List.eq_nil_or_concat q with rfl | ⟨q', z', rfl⟩
              · obtain ⟨m, hm, hm'⟩ := i1
                simp only [List.nil_append, List.mem_singleton] at hm
                simp only [List.cons.injEq, and_true] at h2
                exact hm' (by rw [hm, h2]; exact hb)
              · rw [List.concat_eq_append] at h1 i3
                have h1' : (l :: pre ++ q') ++ [z'] = r ++ [a] := by simpa using h1
                have := (List.append_inj' h1' rfl).2
                simp only [List.cons.injEq, and_true] at this h2
                rcases i3 q' z' z (by simp) with h | h
                · exact h (this ▸ ha)
                · exact h (h2 ▸ hb)
          · exact .inr hb
    · have hp' : ∀ p ∈ consStr l (consHead '\n' (splitEmpty (n - l.length - 1) (join ['\n'] (x :: xs)))), bw p ≠ [] := by
        cases xs with
        | nil => exact hp
        | cons y ys => simpa only [hxw, if_false] using hp
      clear hp
      rename' hp' => hp
      cases hs : splitEmpty (n - l.length - 1) (join ['\n'] (x :: xs)) with
      | nil => exact absurd hs (splitEmpty_ne_nil _ _)
      | cons w ws =>
        rw [hs] at hp
        simp only [consHead, consStr, List.mem_cons, forall_eq_or_imp] at hp
        obtain ⟨i1, i2, i3⟩ := noSurplus_of_solid k (x :: xs) (n - l.length - 1) (by simp at hk ⊢; omega) (by simp) hfr hlen' (by
          rw [hs]
          intro p h
          rcases List.mem_cons.1 h with rfl | h
          · exact bw_head x xs _ hfr hxw hlen' _ _ hs
          · exact hp.2 p h)
        refine ⟨⟨x, by simp, hxw⟩, fun a b r h => ?_, fun r a b h => ?_⟩
        · injection h with _ h; injection h with h1 _; exact .inr (h1 ▸ hxw)
        · cases r with
          | nil => simp at h; exact .inr (h.2.1 ▸ hxw)
          | cons c cs =>
            injection h with _ h
            exact i3 cs a b h

/-- The blocks are those of the lines if and only if there are no surplus blank lines. -/
theorem solid_iff (t : Str) (hb : ∀ c ∈ t, isLineBreak c = true → c = '\n') :
    (∀ b ∈ blocks ((readlines t).drop 6).flatten, b ≠ []) ↔ NoSurplus (pieces t) := by
  unfold pieces
  have hbu : ∀ c ∈ ((readlines t).drop 6).flatten, isLineBreak c = true → c = '\n' := fun c hc => hb c (Eigenval.mem_flatten_drop hc)
  generalize ((readlines t).drop 6).flatten = u at hbu
  have hlf : ∀ l ∈ splitOn '\n' u, Lf l := by
    intro l hl c hc
    have := Eigenval.mem_splitP_sub hl hc
    by_contra hne
    have := hbu c this.1 (by simpa using hne)
    subst this
    simp at *
  have e : blocks u = (splitEmpty u.length u).map bw := rfl
  rw [e]
  simp only [List.mem_map, forall_exists_index, and_imp, forall_apply_eq_imp_iff₂]
  have hj : join ['\n'] (splitOn '\n' u) = u := join_splitOn _ _
  constructor
  · intro h
    exact noSurplus_of_solid _ (splitOn '\n' u) u.length le_rfl (splitP_ne_nil _ _) hlf (by rw [hj]) (by rw [hj]; exact h)
  · rintro ⟨h1, h2, h3⟩
    have := Eigenval.pieces_solid _ (splitOn '\n' u) u.length le_rfl hlf ⟨h1, h2, h3⟩ (by rw [hj])
    rwa [hj] at this

/-! ### exit codes -/

theorem fromList_exits (lines : List Str) : ExitsIn (fun _ => False) (fromList lines) := by
  have i1 : ∀ (l : List Str) i, ExitsIn (fun _ => False) (Kpoints.idx l i) := ExitCodes.idx'
  have j1 : ∀ w, ExitsIn (fun _ => False) (toNum w) := by clear i1; intro w; unfold toNum; exits
  have j2 : ∀ w, ExitsIn (fun _ => False) (Kpoints.toInt w) := ExitCodes.toInt'
  have i3 : ∀ l, ExitsIn (fun _ => False) (lineToType toNum l) := ExitCodes.lineToType' j1
  have i4 : ∀ l, ExitsIn (fun _ => False) (lineToType Kpoints.toInt l) := ExitCodes.lineToType' j2
  have i5 : ∀ l, ExitsIn (fun _ => False) (lineToType (α := Str) Res.ok l) := ExitCodes.lineToType' fun _ => ExitsIn.ok _
  have i6 : ∀ n (x : OneOrMany Int), ExitsIn (fun _ => False) (Doscar.unpack n x) := ExitCodes.unpack'
  have i8 : ∀ x, ExitsIn (fun _ => False) (Doscar.cartesianOf x) := ExitCodes.cartesian'
  have i9 : ∀ n, ExitsIn (fun _ => False) (Eigenval.size n) := by intro n; unfold Eigenval.size; exits
  have i10 : ∀ n v, ExitsIn (fun _ => False) (broadcast n v) := by
    clear i1 i3 i4 i5 i6 i8 i9 j1 j2; intro n v; unfold broadcast; exits
  have i11 : ∀ n v, ExitsIn (fun _ => False) (Eigenval.index n v) := by
    clear i1 i3 i4 i5 i6 i8 i9 j1 j2 i10; intro n v; unfold Eigenval.index; exits
  have i12 : ∀ a b c d e, ExitsIn (fun _ => False) (readBand a b c d e) := by
    intro a b c d e; unfold readBand; exits
  have i13 : ∀ a b c d, ExitsIn (fun _ => False) (readBlock a b c d) := by
    intro a b c d; unfold readBlock
    have i : ∀ x v r, ExitsIn (fun _ => False) (Res.foldlM' (readBand a b x) v r) := fun x v r => ExitCodes.foldl_exits (i12 a b x) r v
    clear i1 i3 i4 i5 i6 i8 i9 i11 i12
    exits
  have i14 : ∀ a b c l, ExitsIn (fun _ => False) (Res.foldlM' (readBlock a b) c l) := fun a b c l => ExitCodes.foldl_exits (i13 a b) l c
  clear i10 i11 i12 i13 j1 j2
  unfold fromList; exits

/-! ### theorems -/

/-- C149: an EIGENVAL (with `\n` as its only line break) is accepted if and only if its first six lines are a header, there are no surplus blank lines,
not more blocks than k-points, and every block is one. -/
theorem C149_accepted (text : Str) (hb : ∀ c ∈ text, isLineBreak c = true → c = '\n') :
    (∃ d, init none (some text) = .ok d) ↔ Accepted text := by
  have hblocks : ∀ {ns nb nk : Nat} {a : Arrays}, a.kpoints.length = nk →
      (Ok (Res.foldlM' (readBlock ns nb) a (blocks ((readlines text).drop 6).flatten).zipIdx) ↔
        NoSurplus (pieces text) ∧ (pointBlocks text).length ≤ nk ∧ ∀ b ∈ pointBlocks text, PointBlock ns nb b) := by
    intro ns nb nk a ha
    rw [ok_blocks ns nb nk _ a ha, ← solid_iff text hb, ← solid_blocks text hb]
    have self : (∀ b ∈ blocks ((readlines text).drop 6).flatten, b ≠ []) → solid (blocks ((readlines text).drop 6).flatten) =
        blocks ((readlines text).drop 6).flatten := by
      intro h
      unfold solid
      rw [List.filter_eq_self]
      intro b hb'
      simpa using h b hb'
    constructor
    · rintro ⟨h1, h2⟩
      have h3 : ∀ b ∈ blocks ((readlines text).drop 6).flatten, b ≠ [] := by
        intro b hb' h0
        obtain ⟨_, _, h, _⟩ := h2 b hb'
        rw [h0] at h; cases h
      rw [self h3]
      exact ⟨h3, h1, h2⟩
    · rintro ⟨h3, h1, h2⟩
      rw [self h3] at h1 h2
      exact ⟨h1, h2⟩
  constructor
  · rintro ⟨d, h⟩
    obtain ⟨l0, l1, l2, l3, l4, l5, ni, na, p, sn, nk, ns, nb, coord, e0, e1, e2, e3, e4, e5, i0, i5, f1, f2, f3, f4, -, -, -, -, -, -, -, -, -, hf⟩ :=
      fromList_ok h
    refine ⟨ns, nk, nb, ⟨l0, l1, l2, l3, l4, l5, ?_, ⟨ni, na, p, i0⟩, ?_, ?_, ?_, sn, i5⟩, (hblocks (by simp)).1 ⟨_, hf⟩⟩
    · apply List.ext_getElem?
      intro i
      rw [List.getElem?_take]
      match i with
      | 0 => simpa using e0
      | 1 => simpa using e1
      | 2 => simpa using e2
      | 3 => simpa using e3
      | 4 => simpa using e4
      | 5 => simpa using e5
      | n + 6 => simp
    · have := (ok_lineToType toNum l1).1 ⟨_, f1⟩
      simpa only [ok_toNum] using this
    · have := (ok_lineToType toNum l2).1 ⟨_, f2⟩
      simpa only [ok_toNum] using this
    · unfold lineToType at f3
      cases hm : Res.mapM' Res.ok (words l3) with
      | ok as =>
        rw [hm] at f3
        rw [← Kpoints.mapM'_length hm]
        match as with
        | [] => cases f3; cases f4
        | [_] => rfl
        | _ :: _ :: _ => cases f3; cases f4
      | exit c => rw [hm] at f3; cases f3
      | raise x => rw [hm] at f3; cases f3
  · rintro ⟨ns, nk, nb, ⟨l0, l1, l2, l3, l4, l5, ht, ⟨ni, na, p, hl0⟩, hx1, hx2, hl3, sn, hl5⟩, hrest⟩
    have hi : ∀ (j : Nat) (l : Str), [l0, l1, l2, l3, l4, l5][j]? = some l → idx (readlines text) j = .ok l := by
      intro j l hj
      have hj6 := (List.getElem?_eq_some_iff.1 hj).1
      rw [← ht, List.getElem?_take, if_pos (by simpa using hj6)] at hj
      unfold idx; rw [hj]
    have ints : ∀ (l : Str) (xs : List Int), Ints l xs → 2 ≤ xs.length → lineToType toInt l = .ok (.many xs) := by
      intro l xs hx h2
      unfold lineToType
      rw [(Chgcar.ints_iff _ _).2 hx]
      match xs, h2 with
      | _ :: _ :: _, _ => rfl
    obtain ⟨v1, hv1⟩ := (ok_lineToType toNum l1).2 (by simpa only [ok_toNum] using hx1)
    obtain ⟨v2, hv2⟩ := (ok_lineToType toNum l2).2 (by simpa only [ok_toNum] using hx2)
    obtain ⟨w, hw⟩ := List.length_eq_one_iff.1 hl3
    have hc : lineToType Res.ok l3 = .ok (.one w) := by unfold lineToType; rw [hw]; rfl
    obtain ⟨cart, hcart⟩ : ∃ c, cartesianOf (.one w) = .ok c := ⟨_, rfl⟩
    obtain ⟨a, ha⟩ := (hblocks (ns := ns) (nb := nb) (nk := nk)
      (a := ⟨List.replicate nk [.fin 0, .fin 0, .fin 0, .fin 0], List.replicate ns (List.replicate nk (List.replicate nb (.fin 0)))⟩)
      (by simp)).2 hrest
    have hs : ∀ n : Nat, size (n : Int) = .ok n := by intro n; unfold size; rw [if_neg (by omega)]; simp
    show ∃ d, fromList (readlines text) = .ok d
    unfold fromList
    rw [hi 0 l0 rfl, Res.ok_bind, ints _ _ hl0 (by simp), Res.ok_bind, hi 1 l1 rfl, Res.ok_bind, hv1, Res.ok_bind, hi 2 l2 rfl, Res.ok_bind, hv2, Res.ok_bind,
      hi 3 l3 rfl, Res.ok_bind, hc, Res.ok_bind, hi 4 l4 rfl, Res.ok_bind, hi 5 l5 rfl, Res.ok_bind, ints _ _ hl5 (by simp), Res.ok_bind]
    have u1 : unpack 3 (OneOrMany.many [sn, (nk : Int), nb]) = .ok [sn, nk, nb] := rfl
    have u2 : unpack 4 (OneOrMany.many [ni, na, p, (ns : Int)]) = .ok [ni, na, p, ns] := rfl
    rw [u1, Res.ok_bind, u2, Res.ok_bind]
    simp only
    rw [hs nk, Res.ok_bind, hs ns, Res.ok_bind, hs nb, Res.ok_bind, ha, Res.ok_bind, hcart, Res.ok_bind]
    exact ⟨_, rfl⟩

/-- C149: every other EIGENVAL raises one of four exceptions; there are no exit codes. -/
theorem C149_refused (text : Str) (hb : ∀ c ∈ text, isLineBreak c = true → c = '\n') :
    (∃ e ∈ [Exc.indexError, .valueError, .typeError, .attributeError], init none (some text) = .raise e) ↔ ¬ Accepted text := by
  rw [← C149_accepted text hb]
  constructor
  · rintro ⟨e, _, h⟩ ⟨d, h'⟩
    rw [h] at h'; cases h'
  · intro h
    cases hr : init none (some text) with
    | ok d => exact absurd ⟨d, hr⟩ h
    | exit c => exact absurd hr (ExitCodes.ExitsIn.never (fromList_exits _) c)
    | raise e => exact ⟨e, Exceptions.C127_eigenval.1.only text e hr (fun h0 => Exceptions.C127_eigenval.2 text (h0 ▸ hr)), rfl⟩

/-- C149: from a path and from a handler the same. -/
theorem C149_sources (text : Str) (p : Option (Option Str)) : init p (some text) = init none (some text) ∧ init (some (some text)) none = init none (some text) :=
  ⟨rfl, rfl⟩

/-! ### the hypotheses are met -/

/-- A file with a blank line before and white space behind the blocks, a block with one number for all, and a band counted from the end. -/
def odd : Str := c!"1 1 1 2\n0.5 NaN\n\nCAR\nsys\n2 3 2\n\n0 0 0 1\n1 NaN -3.5 7 x\n 0 4 -inf\n\n 7\n2 5\n  "

example : ∃ d, init none (some odd) = .ok d ∧ d.arrays.values = [[[.nan, .fin 4], [.fin 0, .fin 5], [.fin 0, .fin 0]], [[.fin (-7/2), .inf true], [.fin 0, .fin 5], [.fin 0, .fin 0]]] ∧
    d.arrays.kpoints = [[.fin 0, .fin 0, .fin 0, .fin 1], [.fin 7, .fin 7, .fin 7, .fin 7], [.fin 0, .fin 0, .fin 0, .fin 0]] := by
  have h : (init none (some odd) >>= fun d => .ok d.arrays) = .ok ⟨[[.fin 0, .fin 0, .fin 0, .fin 1], [.fin 7, .fin 7, .fin 7, .fin 7], [.fin 0, .fin 0, .fin 0, .fin 0]],
      [[[.nan, .fin 4], [.fin 0, .fin 5], [.fin 0, .fin 0]], [[.fin (-7/2), .inf true], [.fin 0, .fin 5], [.fin 0, .fin 0]]]⟩ := by
    decide +kernel
  obtain ⟨d, h1, h2⟩ := Res.bind_eq_ok.1 h
  have := Res.ok.inj h2
  exact ⟨d, h1, by rw [this], by rw [this]⟩

example : Accepted odd := (C149_accepted odd (by decide +kernel)).1 (by
  have h : ∃ d, (init none (some odd) >>= fun d => .ok d.metadata.nBands) = .ok d := ⟨2, by decide +kernel⟩
  obtain ⟨_, h⟩ := h
  obtain ⟨d, h1, _⟩ := Res.bind_eq_ok.1 h
  exact ⟨d, h1⟩)

/-- The same file with a band number too large, a line of two numbers for a k-point, another blank line at the end, one k-point too many: refused. -/
example : ∀ t ∈ [c!"1 1 1 2\n0\n\nCAR\nsys\n2 3 2\n\n0 0 0 1\n3 4 5\n", c!"1 1 1 2\n0\n\nCAR\nsys\n2 3 2\n\n0 1\n1 4 5\n",
    c!"1 1 1 2\n0\n\nCAR\nsys\n2 3 2\n\n0 0 0 1\n1 4 5\n\n", c!"1 1 1 2\n0\n\nCAR\nsys\n2 1 2\n\n0 0 0 1\n1 4 5\n\n0 0 0 1\n1 4 5\n"], ¬ Accepted t := by
  intro t ht
  simp only [List.mem_cons, List.not_mem_nil, or_false] at ht
  rcases ht with rfl | rfl | rfl | rfl
  · exact (C149_refused _ (by decide +kernel)).1 ⟨.indexError, by decide, by decide +kernel⟩
  · exact (C149_refused _ (by decide +kernel)).1 ⟨.valueError, by decide, by decide +kernel⟩
  · exact (C149_refused _ (by decide +kernel)).1 ⟨.indexError, by decide, by decide +kernel⟩
  · exact (C149_refused _ (by decide +kernel)).1 ⟨.indexError, by decide, by decide +kernel⟩

end Verif.EigenvalFull
