import Verif.Model.OutcarFull
import Verif.Props.OutcarTables
import Verif.Lemmas.Agree
import Verif.Props.CountsDoscar
/-! # OUTCAR: numbers that are infinite or not a number (C125) -/
set_option autoImplicit false
namespace Verif.OutcarFull
open Verif Verif.Utils
open Verif.Kpoints (idx toFloat toInt)
open Verif.Outcar (iterOf countStep readParams readEnd readConfig readSymmetry Verdict verdict number stats lastN IsHeader Blank TotRow Rule rows endRow
  site lastRow allRows tables idx_ok lastRow_append keys_set_head site_of)

/-! ### specification -/

/-- The numbers of the line, its first word dropped. -/
def RowOf (line : Str) (xs : List Num) : Prop := List.Forall₂ Shows ((words line).drop 1) xs

/-- `t` is the table whose six rows begin two lines below the line behind its header. -/
def TableAt (below : List Str) (t : Tensor) : Prop :=
  t.length = 6 ∧ ∀ i (hi : i < t.length), ∃ line, below[i + 2]? = some line ∧ RowOf line t[i]

theorem readTensor_ok {rest : List Str} {t : Tensor} (h : readTensor rest = .ok t) : TableAt rest t := by
  unfold readTensor at h
  rw [Res.mapM'_eq_ok] at h
  have hlen := h.length_eq
  refine ⟨by simpa using hlen.symm, ?_⟩
  intro i hi
  have hi' : i < 6 := by rw [← hlen] at hi; exact hi
  have := (List.forall₂_iff_get.1 h).2 i (by simpa using hi') hi
  obtain ⟨l, h1, h2⟩ := Res.bind_eq_ok.1 this
  refine ⟨l, ?_, forall2_toNum.1 (Res.mapM'_eq_ok.1 (by simpa using h2))⟩
  rw [idx_ok] at h1
  rw [← h1]
  congr 1
  have : ∀ j : Fin 6, ([2, 3, 4, 5, 6, 7] : List Nat).get j = j.1 + 2 := by decide
  exact (this ⟨i, hi'⟩).symm

theorem readElastic_ok {header key line : Str} {rest : List Str} {e e' : Dict Str (Option Tensor)}
    (h : readElastic header key line rest e = .ok e') :
    (∀ k, k ≠ key → e'.get? k = e.get? k) ∧
    (startsWith header (strip line) = true → ∃ t, e'.get? key = some (some t) ∧ TableAt rest t) ∧
    (startsWith header (strip line) = false → e' = e) := by
  unfold readElastic at h
  split at h
  · rename_i hc
    obtain ⟨t, ht, h⟩ := Res.bind_eq_ok.1 h
    cases h
    refine ⟨fun k hk => ?_, fun _ => ⟨t, ?_, readTensor_ok ht⟩, fun hf => by rw [hc] at hf; cases hf⟩
    · rw [Dict.get?_set, if_neg (fun h => hk h.symm)]
    · rw [Dict.get?_set, if_pos rfl]
  · rename_i hc
    cases h
    exact ⟨fun _ _ => rfl, fun ht => absurd ht hc, fun _ => rfl⟩

theorem step_iter {s : State} {line : Str} {rest : List Str} {n : Nat × Nat} (hl : iterOf line = some n) :
    step s line rest = .ok { s with other := { s.other with iter := some n, steps := countStep s.other.steps n.1 } } := by
  unfold step; rw [hl]

/-- What a line does to the numbers. -/
structure Other (s s' : State) (line : Str) (rest : List Str) : Prop where
  elastic : (readElastic c!"ELASTIC MODULI  (kBar)" c!"non_symmetrized" line rest s.elastic >>= fun e1 =>
    readElastic c!"SYMMETRIZED ELASTIC MODULI" c!"symmetrized" line rest e1 >>= fun e2 =>
    readElastic c!"TOTAL ELASTIC MODULI" c!"total" line rest e2) = .ok s'.elastic
  magX : readSphere 'x' line rest s.magX = .ok s'.magX
  magY : readSphere 'y' line rest s.magY = .ok s'.magY
  magZ : readSphere 'z' line rest s.magZ = .ok s'.magZ
  fullCell : if startsWith c!"number of electron" (strip line) then
    ∃ v, Res.mapM' toNum ((words line).drop 5) = .ok v ∧ s'.fullCell = some v else s'.fullCell = s.fullCell

theorem step_other {s s' : State} {line : Str} {rest : List Str} (hl : iterOf line = none) (h : step s line rest = .ok s') :
    Other s s' line rest := by
  unfold step at h
  rw [hl] at h
  simp only at h
  obtain ⟨s1, h1, h⟩ := Res.bind_eq_ok.1 h
  obtain ⟨s2, h2, h⟩ := Res.bind_eq_ok.1 h
  obtain ⟨s3, h3, h⟩ := Res.bind_eq_ok.1 h
  unfold readElastics at h3
  obtain ⟨e1, a1, h3⟩ := Res.bind_eq_ok.1 h3
  obtain ⟨e2, a2, h3⟩ := Res.bind_eq_ok.1 h3
  obtain ⟨e3, a3, h3⟩ := Res.bind_eq_ok.1 h3
  have := Res.ok.inj h3
  subst this
  unfold readMagnetization at h
  obtain ⟨x, b1, h⟩ := Res.bind_eq_ok.1 h
  obtain ⟨y, b2, h⟩ := Res.bind_eq_ok.1 h
  obtain ⟨z, b3, h⟩ := Res.bind_eq_ok.1 h
  split at h
  · rename_i hc
    obtain ⟨v, hv, h⟩ := Res.bind_eq_ok.1 h
    have := Res.ok.inj h
    subst this
    exact ⟨by rw [a1, Res.ok_bind, a2, Res.ok_bind, a3], b1, b2, b3, by rw [if_pos hc]; exact ⟨v, hv, rfl⟩⟩
  · rename_i hc
    have := Res.ok.inj h
    subst this
    exact ⟨by rw [a1, Res.ok_bind, a2, Res.ok_bind, a3], b1, b2, b3, by rw [if_neg hc]⟩

theorem other_elastic {s s' : State} {line : Str} {rest : List Str} (h : Other s s' line rest) :
    (∀ k, k ∉ tables.map Prod.snd → s'.elastic.get? k = s.elastic.get? k) ∧
    ∀ p ∈ tables, (startsWith p.1 (strip line) = true → ∃ t, s'.elastic.get? p.2 = some (some t) ∧ TableAt rest t) ∧
      (startsWith p.1 (strip line) = false → s'.elastic.get? p.2 = s.elastic.get? p.2) := by
  obtain ⟨e1, h1, h2⟩ := Res.bind_eq_ok.1 h.elastic
  obtain ⟨e2, h2, h3⟩ := Res.bind_eq_ok.1 h2
  obtain ⟨a1, a2, a3⟩ := readElastic_ok h1
  obtain ⟨b1, b2, b3⟩ := readElastic_ok h2
  obtain ⟨c1, c2, c3⟩ := readElastic_ok h3
  refine ⟨?_, ?_⟩
  · intro k hk
    simp only [tables, List.map_cons, List.map_nil, List.mem_cons, List.not_mem_nil, or_false, not_or] at hk
    rw [c1 k hk.2.2, b1 k hk.2.1, a1 k hk.1]
  · intro p hp
    simp only [tables, List.mem_cons, List.not_mem_nil, or_false] at hp
    rcases hp with rfl | rfl | rfl
    · constructor
      · intro hs
        obtain ⟨t, ht, hT⟩ := a2 hs
        refine ⟨t, ?_, hT⟩
        rw [c1 _ (by decide), b1 _ (by decide), ht]
      · intro hs
        rw [c1 _ (by decide), b1 _ (by decide), a3 hs]
    · constructor
      · intro hs
        obtain ⟨t, ht, hT⟩ := b2 hs
        refine ⟨t, ?_, hT⟩
        rw [c1 _ (by decide), ht]
      · intro hs
        rw [c1 _ (by decide), b3 hs, a1 _ (by decide)]
    · constructor
      · intro hs
        exact c2 hs
      · intro hs
        rw [c3 hs, b1 _ (by decide), a1 _ (by decide)]

theorem scan_elastic {s s' : State} {lines : List Str} (h : scan s lines = .ok s') :
    (∀ k, k ∉ tables.map Prod.snd → s'.elastic.get? k = s.elastic.get? k) ∧
    ∀ p ∈ tables, ((∀ l ∈ lines, ¬ IsHeader p.1 l) → s'.elastic.get? p.2 = s.elastic.get? p.2) ∧
      ∀ pre line post, lines = pre ++ line :: post → IsHeader p.1 line → (∀ l ∈ post, ¬ IsHeader p.1 l) →
        ∃ t, s'.elastic.get? p.2 = some (some t) ∧ TableAt post t := by
  induction lines generalizing s with
  | nil =>
    cases h
    refine ⟨fun _ _ => rfl, fun p _ => ⟨fun _ => rfl, ?_⟩⟩
    intro pre line post he
    simp at he
  | cons l ls ih =>
    unfold scan at h
    obtain ⟨s1, h1, h⟩ := Res.bind_eq_ok.1 h
    obtain ⟨i1, i2⟩ := ih h
    cases hl : iterOf l with
    | none =>
      obtain ⟨o1, o2⟩ := other_elastic (step_other hl h1)
      refine ⟨fun k hk => (i1 k hk).trans (o1 k hk), fun p hp => ⟨?_, ?_⟩⟩
      · intro hn
        rw [(i2 p hp).1 fun x hx => hn x (by simp [hx])]
        apply (o2 p hp).2
        have := hn l (by simp)
        unfold IsHeader at this
        cases hb : startsWith p.1 (strip l)
        · rfl
        · exact absurd ⟨hl, hb⟩ this
      · intro pre line post he hh hn
        cases pre with
        | nil =>
          simp only [List.nil_append, List.cons.injEq] at he
          obtain ⟨rfl, rfl⟩ := he
          rw [(i2 p hp).1 hn]
          exact (o2 p hp).1 hh.2
        | cons x xs =>
          simp only [List.cons_append, List.cons.injEq] at he
          exact (i2 p hp).2 xs line post he.2 hh hn
    | some n =>
      rw [step_iter hl] at h1
      cases h1
      refine ⟨i1, fun p hp => ⟨fun hn => (i2 p hp).1 fun x hx => hn x (by simp [hx]), ?_⟩⟩
      intro pre line post he hh hn
      cases pre with
      | nil =>
        simp only [List.nil_append, List.cons.injEq] at he
        obtain ⟨rfl, rfl⟩ := he
        have := hh.1
        rw [hl] at this; cases this
      | cons x xs =>
        simp only [List.cons_append, List.cons.injEq] at he
        exact (i2 p hp).2 xs line post he.2 hh hn

theorem fromList_scan {lines : List Str} {d : Data} (h : fromList lines = .ok d) : scan {} lines = .ok d.state := by
  unfold fromList at h
  obtain ⟨s, hs, h⟩ := Res.bind_eq_ok.1 h
  split at h
  · cases h
  · obtain ⟨v, _, h⟩ := Res.bind_eq_ok.1 h
    obtain ⟨st, _, h⟩ := Res.bind_eq_ok.1 h
    cases h
    exact hs

theorem scan_fullCell {s s' : State} {lines : List Str} (h : scan s lines = .ok s') :
    ((∀ l ∈ lines, ¬ IsHeader c!"number of electron" l) → s'.fullCell = s.fullCell) ∧
    ∀ pre line post, lines = pre ++ line :: post → IsHeader c!"number of electron" line → (∀ l ∈ post, ¬ IsHeader c!"number of electron" l) →
        ∃ v, s'.fullCell = some v ∧ List.Forall₂ Shows ((words line).drop 5) v := by
  induction lines generalizing s with
  | nil =>
    cases h
    refine ⟨fun _ => rfl, ?_⟩
    intro pre line post he
    simp at he
  | cons l ls ih =>
    unfold scan at h
    obtain ⟨s1, h1, h⟩ := Res.bind_eq_ok.1 h
    obtain ⟨i1, i2⟩ := ih h
    cases hl : iterOf l with
    | none =>
      have ho := (step_other hl h1).fullCell
      refine ⟨?_, ?_⟩
      · intro hn
        rw [i1 fun x hx => hn x (by simp [hx])]
        rw [if_neg (fun hb => hn l (by simp) ⟨hl, hb⟩)] at ho
        exact ho
      · intro pre line post he hh hn
        cases pre with
        | nil =>
          simp only [List.nil_append, List.cons.injEq] at he
          obtain ⟨rfl, rfl⟩ := he
          rw [i1 hn]
          rw [if_pos hh.2] at ho
          obtain ⟨v, hv, hs⟩ := ho
          exact ⟨v, hs, forall2_toNum.1 (Res.mapM'_eq_ok.1 hv)⟩
        | cons x xs =>
          simp only [List.cons_append, List.cons.injEq] at he
          exact i2 xs line post he.2 hh hn
    | some n =>
      rw [step_iter hl] at h1
      cases h1
      refine ⟨fun hn => i1 fun x hx => hn x (by simp [hx]), ?_⟩
      intro pre line post he hh hn
      cases pre with
      | nil =>
        simp only [List.nil_append, List.cons.injEq] at he
        obtain ⟨rfl, rfl⟩ := he
        have := hh.1
        rw [hl] at this; cases this
      | cons x xs =>
        simp only [List.cons_append, List.cons.injEq] at he
        exact i2 xs line post he.2 hh hn

/-- The number a word denotes. -/
def num (w : Str) : Option Num := (toNum w).toOption

theorem num_iff (w : Str) (x : Num) : num w = some x ↔ Shows w x := by
  rw [← toNum_iff]
  unfold num
  cases toNum w <;> simp [Res.toOption]

/-- What a row says: after its first word the moments of s, p, d, f as far as printed, and the total in the last word. -/
structure Says (row : Str) (m : Moments) : Prop where
  total : m.get? c!"tot" = (words row).getLast?.bind num
  some : ∃ w, (words row).getLast? = some w ∧ (num w).isSome
  atMost : (words row).length ≤ 6
  orbital : ∀ i name, [c!"s", c!"p", c!"d", c!"f"][i]? = Option.some name →
    m.get? name = if i + 2 < (words row).length then (words row)[i + 1]?.bind num else Option.none

theorem orbitals_ok {names cs : List Str} {m m' : Moments} (hn : names.Nodup) (h : orbitals names cs m = .ok m') :
    cs.length ≤ names.length ∧ (∀ k, k ∉ names → m'.get? k = m.get? k) ∧
    (∀ i name, names[i]? = some name → m'.get? name = if i < cs.length then cs[i]?.bind num else m.get? name) := by
  induction cs generalizing names m with
  | nil => unfold orbitals at h; cases h; simp
  | cons c cs ih =>
    unfold orbitals at h
    obtain ⟨x, hx, h⟩ := Res.bind_eq_ok.1 h
    cases names with
    | nil => cases h
    | cons n ns =>
      simp only at h
      obtain ⟨i1, i2, i3⟩ := ih (List.nodup_cons.1 hn).2 h
      refine ⟨by simpa using i1, ?_, ?_⟩
      · intro k hk
        rw [i2 k (fun h => hk (by simp [h])), Dict.get?_set, if_neg]
        rintro rfl; exact hk (by simp)
      · intro i name hi
        cases i with
        | zero =>
          simp only [List.getElem?_cons_zero, Option.some.injEq] at hi
          subst hi
          rw [i2 _ (List.nodup_cons.1 hn).1, Dict.get?_set, if_pos rfl]
          simp [num, hx, Res.toOption]
        | succ i =>
          simp only [List.getElem?_cons_succ] at hi
          have hne : n ≠ name := by
            rintro rfl
            exact (List.nodup_cons.1 hn).1 (List.mem_of_getElem? hi)
          rw [i3 i name hi, Dict.get?_set, if_neg hne]
          simp

theorem readMoments_ok {row : Str} {m : Moments} (h : readMoments row = .ok m) : Says row m := by
  unfold readMoments at h
  obtain ⟨m0, h0, h⟩ := Res.bind_eq_ok.1 h
  split at h
  · rename_i t ht
    obtain ⟨x, hx, h⟩ := Res.bind_eq_ok.1 h
    cases h
    obtain ⟨o1, o2, o3⟩ := orbitals_ok (by decide) h0
    have hlen : ((words row).drop 1).dropLast.length = (words row).length - 2 := by simp; omega
    refine ⟨?_, ⟨t, ht, by simp [num, hx, Res.toOption]⟩, ?_, ?_⟩
    · rw [Dict.get?_set, if_pos rfl, ht]; simp [num, hx, Res.toOption]
    · rw [hlen] at o1; simp at o1; omega
    · intro i name hi
      have hne : c!"tot" ≠ name := by
        rintro rfl
        have := List.mem_of_getElem? hi
        revert this; decide
      rw [Dict.get?_set, if_neg hne, o3 i name hi, hlen]
      by_cases hc : i + 2 < (words row).length
      · rw [if_pos (by omega), if_pos hc]
        congr 1
        rw [List.getElem?_dropLast, if_pos (by simp; omega), List.getElem?_drop]
        congr 1; omega
      · rw [if_neg (by omega), if_neg hc]; rfl
  · cases h

/-- `sites` is `base` updated by the rows. -/
def Updated (rs : List Str) (base sites : Dict Int Moments) : Prop :=
  ∀ n, (∀ row, lastRow n rs = some row → ∃ m, sites.get? n = some m ∧ Says row m) ∧ (lastRow n rs = none → sites.get? n = base.get? n)

theorem Updated.nil (b : Dict Int Moments) : Updated [] b b := fun n => ⟨fun row h => by simp [lastRow] at h, fun _ => rfl⟩

theorem Updated.append {a b : List Str} {x y z : Dict Int Moments} (h1 : Updated a x y) (h2 : Updated b y z) : Updated (a ++ b) x z := by
  intro n
  rw [lastRow_append]
  cases hb : lastRow n b with
  | some r => exact ⟨fun row h => by cases h; exact (h2 n).1 r hb, fun h => by cases h⟩
  | none =>
    rw [(h2 n).2 hb]
    exact h1 n

theorem Updated.single {row : Str} {n : Int} {m : Moments} (b : Dict Int Moments) (hs : site row = some n) (hm : Says row m) :
    Updated [row] b (b.set n m) := by
  intro k
  rw [Dict.get?_set]
  by_cases hk : n = k
  · subst hk
    simp only [if_true]
    refine ⟨fun r hr => ?_, fun hr => ?_⟩
    · simp [lastRow, hs] at hr; subst hr; exact ⟨m, rfl, hm⟩
    · simp [lastRow, hs] at hr
  · simp only [if_neg hk]
    refine ⟨fun r hr => ?_, fun _ => by simp⟩
    simp [lastRow, hs, hk] at hr

theorem readMag_ok {ls : List Str} {m m' : Sphere} (h : readMag m ls = .ok m') :
    Updated (rows ls) m.sites m'.sites ∧ (∀ r ∈ rows ls, (site r).isSome) ∧
    m'.sites.keys.head? = (m.sites.keys ++ (rows ls).filterMap site).head? ∧
    ∃ l, endRow ls = some l ∧ (TotRow l ∧ Says l m'.total ∨ Blank l ∧ ∃ n, m'.sites.keys.head? = some n ∧ m'.sites.get? n = some m'.total) := by
  induction ls generalizing m with
  | nil => cases h
  | cons l ls ih =>
    unfold readMag at h
    split at h
    · rename_i hb
      have hb' : Blank l := hb
      have hr : rows (l :: ls) = [] := by unfold rows; rw [List.takeWhile_cons]; simp [hb']
      have he : endRow (l :: ls) = some l := by unfold endRow; rw [List.dropWhile_cons]; simp [hb']
      split at h
      · rename_i v rest hm
        cases h
        rw [hr]
        refine ⟨Updated.nil _, by simp, by simp, l, he, .inr ⟨hb', ?_⟩⟩
        simp only [hm]
        exact ⟨_, rfl, by simp [Dict.get?]⟩
      · cases h
    · rename_i hb
      have hb' : ¬ Blank l := hb
      split at h
      · rename_i ht
        have ht' : TotRow l := ht
        have hr : rows (l :: ls) = [] := by unfold rows; rw [List.takeWhile_cons]; simp [ht']
        have he : endRow (l :: ls) = some l := by unfold endRow; rw [List.dropWhile_cons]; simp [ht']
        obtain ⟨t, h1, h⟩ := Res.bind_eq_ok.1 h
        cases h
        rw [hr]
        exact ⟨Updated.nil _, by simp, by simp, l, he, .inl ⟨ht', readMoments_ok h1⟩⟩
      · rename_i ht
        have ht' : ¬ TotRow l := ht
        have he : endRow (l :: ls) = endRow ls := by unfold endRow; rw [List.dropWhile_cons]; simp [hb', ht']
        split at h
        · rename_i hd
          have hd' : Rule l := hd
          have hr : rows (l :: ls) = rows ls := by unfold rows; rw [List.takeWhile_cons]; simp [hb', ht', hd']
          rw [hr, he]
          exact ih h
        · rename_i hd
          have hd' : ¬ Rule l := hd
          have hr : rows (l :: ls) = l :: rows ls := by unfold rows; rw [List.takeWhile_cons]; simp [hb', ht', hd']
          obtain ⟨w, hw, h⟩ := Res.bind_eq_ok.1 h
          obtain ⟨n, hn, h⟩ := Res.bind_eq_ok.1 h
          obtain ⟨t, h1, h⟩ := Res.bind_eq_ok.1 h
          have hs := site_of hw hn
          obtain ⟨i1, i2, i3, i4⟩ := ih h
          rw [hr, he]
          refine ⟨(Updated.single m.sites hs (readMoments_ok h1)).append i1, ?_, ?_, i4⟩
          · intro r hr
            rcases List.mem_cons.1 hr with rfl | hr
            · rw [hs]; rfl
            · exact i2 r hr
          · rw [i3, List.filterMap_cons, hs]
            simp only [List.head?_append, keys_set_head]
            cases m.sites.keys.head? <;> simp

/-- What a parse of the lines must store for one direction. -/
structure SphereOf (header : Str) (lines : List Str) (base m : Sphere) : Prop where
  sites : Updated (allRows header lines) base.sites m.sites
  numbered : ∀ r ∈ allRows header lines, (site r).isSome
  first : m.sites.keys.head? = (base.sites.keys ++ (allRows header lines).filterMap site).head?
  absent : (∀ l ∈ lines, ¬ IsHeader header l) → m = base
  total : ∀ pre line post, lines = pre ++ line :: post → IsHeader header line → (∀ l ∈ post, ¬ IsHeader header l) →
    ∃ l, endRow (post.drop 3) = some l ∧
      (TotRow l ∧ Says l m.total ∨ Blank l ∧ ∃ n, m.sites.keys.head? = some n ∧ m.sites.get? n = some m.total)

theorem scan_sphere (c : Char) (f : State → Sphere)
    (hf : ∀ s s' line rest, Other s s' line rest → readSphere c line rest (f s) = .ok (f s'))
    (hi : ∀ (s : State) o, f { s with other := o } = f s)
    {s s' : State} {lines : List Str} (h : scan s lines = .ok s') :
    SphereOf (c!"magnetization (" ++ [c, ')']) lines (f s) (f s') := by
  induction lines generalizing s with
  | nil =>
    cases h
    exact ⟨Updated.nil _, by simp [allRows], by simp [allRows], fun _ => rfl, by intro pre line post he; simp at he⟩
  | cons l ls ih =>
    unfold scan at h
    obtain ⟨s1, h1, h⟩ := Res.bind_eq_ok.1 h
    have I := ih h
    have key : ¬ IsHeader (c!"magnetization (" ++ [c, ')']) l → f s1 = f s → SphereOf (c!"magnetization (" ++ [c, ')']) (l :: ls) (f s) (f s') := by
      intro hnh hs
      rw [← hs]
      have ha : allRows (c!"magnetization (" ++ [c, ')']) (l :: ls) = allRows (c!"magnetization (" ++ [c, ')']) ls := by
        rw [allRows, if_neg hnh, List.nil_append]
      refine ⟨by rw [ha]; exact I.sites, by rw [ha]; exact I.numbered, by rw [ha]; exact I.first,
        fun hn => I.absent fun x hx => hn x (by simp [hx]), ?_⟩
      intro pre line post he hh hn
      cases pre with
      | nil =>
        simp only [List.nil_append, List.cons.injEq] at he
        obtain ⟨rfl, rfl⟩ := he
        exact absurd hh hnh
      | cons x xs =>
        simp only [List.cons_append, List.cons.injEq] at he
        exact I.total xs line post he.2 hh hn
    cases hl : iterOf l with
    | some n =>
      rw [step_iter hl] at h1
      cases h1
      exact key (fun hh => by have := hh.1; rw [hl] at this; cases this) (hi _ _)
    | none =>
      have ho := hf _ _ _ _ (step_other hl h1)
      unfold readSphere at ho
      split at ho
      · rename_i hb
        have hh : IsHeader (c!"magnetization (" ++ [c, ')']) l := ⟨hl, hb⟩
        obtain ⟨r1, r2, r3, r4⟩ := readMag_ok ho
        have ha : allRows (c!"magnetization (" ++ [c, ')']) (l :: ls) = rows (ls.drop 3) ++ allRows (c!"magnetization (" ++ [c, ')']) ls := by
          rw [allRows, if_pos hh]
        refine ⟨?_, ?_, ?_, fun hn => absurd hh (hn l (by simp)), ?_⟩
        · rw [ha]; exact r1.append I.sites
        · rw [ha]
          intro r hr
          rcases List.mem_append.1 hr with hr | hr
          · exact r2 r hr
          · exact I.numbered r hr
        · rw [ha, I.first, List.head?_append, r3, List.filterMap_append, ← List.append_assoc, List.head?_append (l := _ ++ _)]
        · intro pre line post he _ hn
          cases pre with
          | nil =>
            simp only [List.nil_append, List.cons.injEq] at he
            obtain ⟨rfl, rfl⟩ := he
            rw [I.absent hn]
            exact r4
          | cons x xs =>
            rename_i hh'
            simp only [List.cons_append, List.cons.injEq] at he
            exact I.total xs line post he.2 hh' hn
      · rename_i hb
        injection ho with ho
        exact key (fun hh => hb hh.2) ho.symm

/-! ### both models agree -/

/-- A dictionary with other values. -/
def mapVal {κ α β : Type} (f : α → β) (d : Dict κ α) : Dict κ β := d.map fun p => (p.1, f p.2)

theorem mapVal_set {κ α β : Type} [DecidableEq κ] (f : α → β) (d : Dict κ α) (k : κ) (v : α) : mapVal f (d.set k v) = (mapVal f d).set k (f v) := by
  induction d with
  | nil => rfl
  | cons p ps ih =>
    obtain ⟨a, b⟩ := p
    show mapVal f (Dict.set ((a, b) :: ps) k v) = Dict.set ((a, f b) :: mapVal f ps) k (f v)
    unfold Dict.set
    split
    · rfl
    · rw [← ih]; rfl

/-- The moments of the other model. -/
def liftSphere (m : Outcar.Sphere) : Sphere := ⟨mapVal (mapVal Num.fin) m.sites, mapVal Num.fin m.total⟩
/-- The tables of the other model. -/
def liftElastic (e : Dict Str (Option Outcar.Tensor)) : Dict Str (Option Tensor) := mapVal (Option.map (List.map (List.map Num.fin))) e
/-- The other model's variables without its numbers. -/
def bare (s : Outcar.State) : Outcar.State :=
  { s with elastic := ({} : Outcar.State).elastic, magX := {}, magY := {}, magZ := {}, fullCell := none }
/-- The variables of the other model. -/
def liftState (s : Outcar.State) : State :=
  ⟨bare s, liftElastic s.elastic, liftSphere s.magX, liftSphere s.magY, liftSphere s.magZ, s.fullCell.map (List.map .fin)⟩
/-- The data of the other model. -/
def lift (d : Outcar.Data) : Data := ⟨liftState d.state, d.verdict, d.last, d.stats⟩

theorem readElastic_agree (header key line : Str) (rest : List Str) (e : Dict Str (Option Outcar.Tensor)) :
    Agree liftElastic (Outcar.readElastic header key line rest e) (readElastic header key line rest (liftElastic e)) := by
  unfold Outcar.readElastic readElastic
  split
  · refine Agree.bind (f := List.map (List.map Num.fin)) ?_ fun t _ => ?_
    · exact Agree.mapM' (fun i => Agree.same fun l _ => Agree.mapM' toNum_agree _) _
    · exact congrArg Res.ok (mapVal_set _ e key (some t)).symm
  · exact rfl

theorem orbitals_agree (names cs : List Str) (m : Outcar.Moments) :
    Agree (mapVal Num.fin) (Outcar.orbitals names cs m) (orbitals names cs (mapVal Num.fin m)) := by
  induction cs generalizing names m with
  | nil => unfold Outcar.orbitals orbitals; exact rfl
  | cons c cs ih =>
    unfold Outcar.orbitals orbitals
    refine (toNum_agree c).bind fun x _ => ?_
    cases names with
    | nil => exact .inr rfl
    | cons n ns =>
      have := ih ns (m.set n x)
      rw [mapVal_set] at this
      exact this

theorem readMoments_agree (line : Str) : Agree (mapVal Num.fin) (Outcar.readMoments line) (readMoments line) := by
  unfold Outcar.readMoments readMoments
  refine (orbitals_agree _ _ []).bind fun m _ => ?_
  cases (words line).getLast? with
  | none => exact .inr rfl
  | some t => exact (toNum_agree t).bind fun x _ => congrArg Res.ok (mapVal_set Num.fin m _ x).symm

theorem readMag_agree (ls : List Str) (m : Outcar.Sphere) : Agree liftSphere (Outcar.readMag m ls) (readMag (liftSphere m) ls) := by
  induction ls generalizing m with
  | nil => exact .inr rfl
  | cons l ls ih =>
    unfold Outcar.readMag readMag
    split
    · obtain ⟨sites, total⟩ := m
      cases sites with
      | nil => exact .inr rfl
      | cons p ps => exact rfl
    · split
      · exact (readMoments_agree l).bind fun t _ => rfl
      · split
        · exact ih m
        · refine Agree.same fun w _ => Agree.same fun n _ => (readMoments_agree l).bind fun t _ => ?_
          have := ih { m with sites := m.sites.set n t }
          have e : liftSphere { m with sites := m.sites.set n t } = { liftSphere m with sites := (liftSphere m).sites.set n (mapVal Num.fin t) } := by
            unfold liftSphere
            simp only [mapVal_set]
          rw [e] at this
          exact this

theorem readSphere_agree (c : Char) (line : Str) (rest : List Str) (m : Outcar.Sphere) :
    Agree liftSphere (Outcar.readSphere c line rest m) (readSphere c line rest (liftSphere m)) := by
  unfold Outcar.readSphere readSphere
  split
  · exact readMag_agree _ m
  · exact rfl

theorem readParams_agree (s : Outcar.State) (line : Str) : Agree bare (readParams s line) (readParams (bare s) line) := by
  unfold readParams
  refine Agree.same fun st1 _ => Agree.same fun pa _ => Agree.same fun st2 _ => ?_
  split
  · exact Agree.same fun t _ => Agree.same fun n _ => rfl
  · exact rfl

theorem readSymmetry_agree (s : Outcar.State) (line : Str) (rest : List Str) :
    Agree bare (readSymmetry s line rest) (readSymmetry (bare s) line rest) := by
  have hc : (bare s).config = s.config := rfl
  have hy : (bare s).symmetry = s.symmetry := rfl
  unfold readSymmetry
  rw [hc, hy]
  cases s.config with
  | none => exact rfl
  | some dyn => exact Agree.same fun y1 _ => Agree.same fun y2 _ => Agree.same fun y3 _ => rfl

theorem bare_config (s : Outcar.State) (line : Str) : readConfig (readEnd (bare s) line) line = bare (readConfig (readEnd s line) line) := by
  unfold readConfig readEnd
  dsimp only
  split <;> split <;> split <;> rfl

/-- The other model leaves the numbers alone where it does not read any. -/
theorem readParams_numbers {s s' : Outcar.State} {line : Str} (h : readParams s line = .ok s') : s'.elastic = s.elastic ∧ s'.magX = s.magX ∧
    s'.magY = s.magY ∧ s'.magZ = s.magZ ∧ s'.fullCell = s.fullCell := by
  unfold readParams at h
  obtain ⟨st1, _, h⟩ := Res.bind_eq_ok.1 h
  obtain ⟨pa, _, h⟩ := Res.bind_eq_ok.1 h
  obtain ⟨st2, _, h⟩ := Res.bind_eq_ok.1 h
  split at h
  · obtain ⟨t, _, h⟩ := Res.bind_eq_ok.1 h
    obtain ⟨n, _, h⟩ := Res.bind_eq_ok.1 h
    rw [← Res.ok.inj h]; simp
  · rw [← Res.ok.inj h]; simp

theorem readSymmetry_numbers {s s' : Outcar.State} {line : Str} {rest : List Str} (h : readSymmetry s line rest = .ok s') :
    s'.elastic = s.elastic ∧ s'.magX = s.magX ∧ s'.magY = s.magY ∧ s'.magZ = s.magZ ∧ s'.fullCell = s.fullCell := by
  unfold readSymmetry at h
  split at h
  · rw [← Res.ok.inj h]; simp
  · obtain ⟨y1, _, h⟩ := Res.bind_eq_ok.1 h
    obtain ⟨y2, _, h⟩ := Res.bind_eq_ok.1 h
    obtain ⟨y3, _, h⟩ := Res.bind_eq_ok.1 h
    rw [← Res.ok.inj h]; simp

theorem config_numbers (s : Outcar.State) (line : Str) : (readConfig (readEnd s line) line).elastic = s.elastic ∧
    (readConfig (readEnd s line) line).magX = s.magX ∧ (readConfig (readEnd s line) line).magY = s.magY ∧
    (readConfig (readEnd s line) line).magZ = s.magZ ∧ (readConfig (readEnd s line) line).fullCell = s.fullCell := by
  unfold readConfig readEnd
  dsimp only
  split <;> split <;> split <;> simp

theorem step_agree (s : Outcar.State) (line : Str) (rest : List Str) : Agree liftState (Outcar.step s line rest) (step (liftState s) line rest) := by
  unfold Outcar.step step
  cases iterOf line with
  | some n => exact rfl
  | none =>
    refine (readParams_agree s line).bind fun s1 h1 => ?_
    rw [bare_config]
    refine (readSymmetry_agree _ line rest).bind fun s2 h2 => ?_
    have e : { liftState s with other := bare s2 } = liftState s2 := by
      obtain ⟨a1, a2, a3, a4, a5⟩ := readParams_numbers h1
      obtain ⟨b1, b2, b3, b4, b5⟩ := config_numbers s1 line
      obtain ⟨c1, c2, c3, c4, c5⟩ := readSymmetry_numbers h2
      unfold liftState
      rw [c1, c2, c3, c4, c5, b1, b2, b3, b4, b5, a1, a2, a3, a4, a5]
    rw [e]
    refine Agree.bind (f := liftState) ?_ fun s3 _ => ?_
    · unfold Outcar.readElastics readElastics
      exact (readElastic_agree _ _ line rest _).bind fun e1 _ => (readElastic_agree _ _ line rest e1).bind fun e2 _ =>
        (readElastic_agree _ _ line rest e2).bind fun e3 _ => rfl
    · unfold Outcar.readMagnetization readMagnetization
      refine (readSphere_agree 'x' line rest _).bind fun x _ => (readSphere_agree 'y' line rest _).bind fun y _ =>
        (readSphere_agree 'z' line rest _).bind fun z _ => ?_
      split
      · exact (Agree.mapM' toNum_agree _).bind fun v _ => rfl
      · exact rfl

theorem scan_agree (lines : List Str) (s : Outcar.State) : Agree liftState (Outcar.scan s lines) (scan (liftState s) lines) := by
  induction lines generalizing s with
  | nil => exact rfl
  | cons l ls ih =>
    unfold Outcar.scan scan
    exact (step_agree s l ls).bind fun s1 _ => ih s1

/-- Where the first model of outcar.py describes the outcome, this one gives the same. -/
theorem fromList_agree (lines : List Str) : Agree lift (Outcar.fromList lines) (fromList lines) := by
  unfold Outcar.fromList fromList
  refine Agree.bind (f := liftState) (scan_agree lines {}) fun s _ => ?_
  have hi : (liftState s).other.iter = s.iter := rfl
  rw [hi]
  cases s.iter with
  | none => exact rfl
  | some it => exact Agree.same fun v _ => Agree.same fun st _ => rfl

theorem init_agree (path : Option (Option Str)) (handler : Option Str) : Agree lift (Outcar.init path handler) (init path handler) := by
  unfold Outcar.init init
  split
  · exact fromList_agree _
  · split
    · exact fromList_agree _
    · exact rfl
    · exact rfl

/-! ### C125 -/

/-- C125 for the elastic moduli of an OUTCAR: under each key is the table below the last header of its kind, number by number as printed, whichever
of its numbers are infinite or not a number. -/
theorem C125_outcar_tables (lines : List Str) (d : Data) (h : fromList lines = .ok d) (header key : Str) (hk : (header, key) ∈ tables) :
    ∀ pre line post, lines = pre ++ line :: post → IsHeader header line → (∀ l ∈ post, ¬ IsHeader header l) →
      ∃ t, d.state.elastic.get? key = some (some t) ∧ TableAt post t :=
  ((scan_elastic (fromList_scan h)).2 _ hk).2

/-- C125 for the magnetization of the whole cell. -/
theorem C125_outcar_full_cell (lines : List Str) (d : Data) (h : fromList lines = .ok d) :
    (∀ pre line post, lines = pre ++ line :: post → IsHeader c!"number of electron" line →
      (∀ l ∈ post, ¬ IsHeader c!"number of electron" l) →
      ∃ v, d.state.fullCell = some v ∧ List.Forall₂ Shows ((words line).drop 5) v) ∧
    ((∀ l ∈ lines, ¬ IsHeader c!"number of electron" l) → d.state.fullCell = none) := by
  obtain ⟨h1, h2⟩ := scan_fullCell (fromList_scan h)
  exact ⟨h2, h1⟩

/-- C125 for the moments of an OUTCAR: for each direction, the moments of site `n` are those of the last row about it, the total those of the row `tot` of
the last table (or of the first site read), whichever of them are infinite or not a number. -/
theorem C125_outcar_spheres (lines : List Str) (d : Data) (h : fromList lines = .ok d) :
    SphereOf c!"magnetization (x)" lines {} d.state.magX ∧ SphereOf c!"magnetization (y)" lines {} d.state.magY ∧
    SphereOf c!"magnetization (z)" lines {} d.state.magZ := by
  have hs := fromList_scan h
  exact ⟨scan_sphere 'x' State.magX (fun _ _ _ _ o => o.magX) (fun _ _ => rfl) hs,
    scan_sphere 'y' State.magY (fun _ _ _ _ o => o.magY) (fun _ _ => rfl) hs,
    scan_sphere 'z' State.magZ (fun _ _ _ _ o => o.magZ) (fun _ _ => rfl) hs⟩

def exampleNan : Str :=
  c!" NELM   =   2;\n Iteration 1(  1)\n  TOTAL ELASTIC MODULI (kBar)\n Direction XX\n ---\n XX NaN 2.5\n YY 3\n ZZ -Infinity\n XY 5\n YZ 6\n ZX -7\n magnetization (x)\n\n # of ion  s  p  d  tot\n -----\n  1  1 NaN 3 6\n ------\ntot inf 2 3 6.5\n number of electron 8.0 magnetization nan 1\n"

/-- Non-vacuity: numbers of all kinds, each at its place. -/
example : (init none (some exampleNan) >>= fun d => .ok (d.state.elastic.get? c!"total", d.state.magX, d.state.fullCell)) =
    .ok (some (some [[.nan, .fin (5 / 2)], [.fin 3], [.inf true], [.fin 5], [.fin 6], [.fin (-7)]]),
      ⟨[(1, [(c!"s", .fin 1), (c!"p", .nan), (c!"d", .fin 3), (c!"tot", .fin 6)])],
        [(c!"s", .inf false), (c!"p", .fin 2), (c!"d", .fin 3), (c!"tot", .fin (13 / 2))]⟩, some [.nan, .fin 1]) := by decide +kernel

end Verif.OutcarFull
