import Verif.Lemmas.Incar2
/-! Helper lemmas about writing INCAR. -/
set_option autoImplicit false
namespace Verif.Incar
open Verif Verif.Utils Verif.IncarSpec

/-! ### order of tags -/

theorem strLe_total : ∀ a b : Str, strLe a b = true ∨ strLe b a = true
  | [], _ => .inl (by simp [strLe])
  | _ :: _, [] => .inr (by simp [strLe])
  | x :: s, y :: t => by
    simp only [strLe]
    by_cases h1 : x.toNat < y.toNat
    · simp [h1]
    · by_cases h2 : y.toNat < x.toNat
      · simp [h2]
      · simp only [h1, h2, if_false]; exact strLe_total s t

theorem strLe_lex : ∀ {a b : Str}, strLe a b = true → a = b ∨ List.Lex (fun x y : Char => x.toNat < y.toNat) a b
  | [], [], _ => .inl rfl
  | [], _ :: _, _ => .inr .nil
  | _ :: _, [], h => by simp [strLe] at h
  | x :: s, y :: t, h => by
    simp only [strLe] at h
    by_cases h1 : x.toNat < y.toNat
    · exact .inr (.rel h1)
    · by_cases h2 : y.toNat < x.toNat
      · simp [h1, h2] at h
      · simp only [h1, h2, if_false] at h
        have : x = y := char_ext_toNat (by omega)
        subst this
        rcases strLe_lex h with rfl | h'
        · exact .inl rfl
        · exact .inr (.cons h')

theorem strLe_trans : ∀ {a b c : Str}, strLe a b = true → strLe b c = true → strLe a c = true
  | [], _, _, _, _ => by simp [strLe]
  | _ :: _, [], _, h, _ => by simp [strLe] at h
  | _ :: _, _ :: _, [], _, h => by simp [strLe] at h
  | x :: s, y :: t, z :: u, h1, h2 => by
    simp only [strLe] at *
    by_cases hxy : x.toNat < y.toNat
    · by_cases hyz : y.toNat < z.toNat
      · simp [show x.toNat < z.toNat by omega]
      · by_cases hzy : z.toNat < y.toNat
        · simp [hyz, hzy] at h2
        · simp [show x.toNat < z.toNat by omega]
    · by_cases hyx : y.toNat < x.toNat
      · simp [hxy, hyx] at h1
      · simp only [hxy, hyx, if_false] at h1
        by_cases hyz : y.toNat < z.toNat
        · simp [show x.toNat < z.toNat by omega]
        · by_cases hzy : z.toNat < y.toNat
          · simp [hyz, hzy] at h2
          · simp only [hyz, hzy, if_false] at h2
            simp only [show ¬ x.toNat < z.toNat by omega, show ¬ z.toNat < x.toNat by omega, if_false]
            exact strLe_trans h1 h2

theorem insertStr_perm (k : Str) (l : List Str) : (insertStr k l).Perm (k :: l) := by
  induction l with
  | nil => exact .refl _
  | cons x xs ih =>
    simp only [insertStr]; split
    · exact .refl _
    · exact (ih.cons x).trans (.swap _ _ _)

theorem sortStrs_perm (l : List Str) : (sortStrs l).Perm l := by
  induction l with
  | nil => exact .refl _
  | cons x xs ih => exact (insertStr_perm x _).trans (ih.cons x)

theorem insertStr_sorted (k : Str) (l : List Str) (h : l.Pairwise (fun a b => strLe a b = true)) :
    (insertStr k l).Pairwise (fun a b => strLe a b = true) := by
  induction l with
  | nil => simp [insertStr]
  | cons x xs ih =>
    rw [List.pairwise_cons] at h
    simp only [insertStr]; split
    · rename_i hk
      rw [List.pairwise_cons, List.pairwise_cons]
      refine ⟨?_, h⟩
      intro y hy
      rcases List.mem_cons.1 hy with rfl | hy
      · exact hk
      · exact strLe_trans hk (h.1 y hy)
    · rename_i hk
      rw [List.pairwise_cons]
      refine ⟨?_, ih h.2⟩
      intro y hy
      rcases List.mem_cons.1 ((insertStr_perm k xs).mem_iff.1 hy) with rfl | hy
      · rcases strLe_total y x with h' | h'
        · exact absurd h' hk
        · exact h'
      · exact h.1 y hy

theorem sortStrs_sorted (l : List Str) : (sortStrs l).Pairwise (fun a b => strLe a b = true) := by
  induction l with
  | nil => exact .nil
  | cons x xs ih => exact insertStr_sorted x _ ih

/-! ### lines written -/

/-- Sorted entries. -/
def sortedEntries (d : Entries) : Entries := (sortStrs d.keys).filterMap fun k => (d.get? k).map fun i => (k, i)

theorem filterMap_keys (d : Entries) (h : d.keys.Nodup) :
    d.keys.filterMap (fun k => (d.get? k).map fun i => (k, i)) = d := by
  have key : ∀ (e : Entries), (∀ p ∈ e, d.get? p.1 = some p.2) →
      e.keys.filterMap (fun k => (d.get? k).map fun i => (k, i)) = e := by
    intro e
    induction e with
    | nil => intro _; rfl
    | cons p ps ih =>
      intro hp
      simp only [Dict.keys, List.map_cons, List.filterMap_cons, hp p (by simp), Option.map_some]
      simp only [Dict.keys] at ih
      rw [ih (fun q hq => hp q (by simp [hq]))]
  exact key d (fun p hp => Dict.get?_eq_some_of_mem d h hp)

theorem sortedEntries_perm (d : Entries) (h : d.keys.Nodup) : (sortedEntries d).Perm d := by
  have := (sortStrs_perm d.keys).filterMap (fun k => (d.get? k).map fun i => (k, i))
  rw [filterMap_keys d h] at this
  exact this

theorem sortedEntries_keys (d : Entries) : (sortedEntries d).keys = sortStrs d.keys := by
  unfold sortedEntries Dict.keys
  rw [List.map_filterMap]
  have h : ∀ k ∈ sortStrs d.keys, (Option.map Prod.fst ((d.get? k).map fun i => (k, i))) = some k := by
    intro k hk
    have := (sortStrs_perm d.keys).mem_iff.1 hk
    rw [Dict.mem_keys_iff] at this
    obtain ⟨i, hi⟩ := Option.isSome_iff_exists.1 this
    simp [hi]
  have key : ∀ l : List Str, (∀ k ∈ l, (Option.map Prod.fst ((d.get? k).map fun i => (k, i))) = some k) →
      l.filterMap (fun k => Option.map Prod.fst ((d.get? k).map fun i => (k, i))) = l := by
    intro l
    induction l with
    | nil => intro _; rfl
    | cons k ks ih =>
      intro hk
      rw [List.filterMap_cons, hk k (by simp)]
      simp only
      rw [ih (fun x hx => hk x (by simp [hx]))]
  exact key _ h

theorem writeText_eq (b : Bool) (d : Entries) :
    writeText b d = (sortedEntries d).flatMap fun e => writeLine b e.1 e.2 := by
  unfold writeText sortedEntries
  generalize sortStrs d.keys = ks
  induction ks with
  | nil => rfl
  | cons k ks ih =>
    rw [List.flatMap_cons, List.filterMap_cons, ih]
    cases d.get? k <;> simp

end Verif.Incar
