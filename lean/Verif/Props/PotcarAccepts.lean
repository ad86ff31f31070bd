import Verif.Props.Potcar
import Verif.Props.Regex
import Verif.Props.RegexMore
/-! # POTCAR: which files are accepted, and exactly what is stored (C155) -/
set_option autoImplicit false
namespace Verif.Potcar.Accepts
open Verif Verif.Utils Verif.Regex Verif.Potcar
open Verif.Kpoints (toFloat toInt)
open Verif.Outcar (cut)
open Verif.Chgcar (FirstAt cut_some cut_none)
open Verif.Eigenval (Numbers)

/-! ### specification -/

/-- Keys with a text. -/
def textKeys : List Str := [c!"VRHFIN", c!"LEXCH", c!"TITEL"]
/-- Keys with a truth value. -/
def boolKeys : List Str := [c!"LULTRA", c!"LCOR", c!"LPAW"]
/-- Keys with a whole number. -/
def intKeys : List Str := [c!"IUNSCR", c!"NDATA", c!"ICORE"]
/-- Keys with a real number. -/
def realKeys : List Str := [c!"EATOM", c!"RPACOR", c!"POMASS", c!"ZVAL", c!"RCORE", c!"RWIGS", c!"ENMAX", c!"ENMIN", c!"RCLOC", c!"EAUG", c!"DEXC",
  c!"RMAX", c!"RAUG", c!"RDEP", c!"RDEPT"]
/-- The keys that are read. -/
def Known (k : Str) : Prop := k ∈ textKeys ∨ k ∈ boolKeys ∨ k ∈ intKeys ∨ k ∈ realKeys ∨ k = c!"STEP"

/-- The entries of the file: the matches of the pattern `(\S+)\s*=\s*(.*?)(?=;|$)` between (and with) the first mark and the first second mark behind it. -/
def Listed (text : Str) (kvs : List (Str × Str)) : Prop := ∃ a r m b l, FirstAt startMark text a r ∧ FirstAt endMark r m b ∧
  FindAll entryPattern (startMark ++ m ++ endMark) l ∧ kvs = l.map entryGroups

/-- A word of letters. -/
def Letters (w : Str) : Prop := w ≠ [] ∧ ∀ c ∈ w, 'A' ≤ c ∧ c ≤ 'Z' ∨ 'a' ≤ c ∧ c ≤ 'z'

/-- The numbers among words; words of letters are left out. -/
inductive Steps : List Str → List Rat → Prop
  | done : Steps [] []
  | letters {w : Str} {ws : List Str} {xs : List Rat} : Letters w → Steps ws xs → Steps (w :: ws) xs
  | number {w : Str} {x : Rat} {ws : List Str} {xs : List Rat} : ¬ Letters w → pyFloatRat w = some x → Steps ws xs → Steps (w :: ws) (x :: xs)

/-- What is made of a printed value, with nothing left out: truth values by the first letter behind an optional point, whole numbers are an optional
minus and all digits behind it, real numbers are the longest front of the form `-?\d*\.?\d*[eE]?-?\d*`, which has to be a number, and for `STEP` all
words that are not letters have to be numbers, and there is a word. -/
inductive Reads : Str → Str → Value → Prop
  | text {key value : Str} : key ∈ textKeys → Reads key value (.text (strip value))
  | bool {key value r : Str} {c : Char} {b : Bool} : key ∈ boolKeys → (value = c :: r ∨ value = '.' :: c :: r) →
      (b = true ∧ (c = 'T' ∨ c = 't') ∨ b = false ∧ (c = 'F' ∨ c = 'f')) → Reads key value (.bool b)
  | int {key sign ds r : Str} {i : Int} : key ∈ intKeys → (sign = [] ∨ sign = ['-']) → ds ≠ [] →
      (∀ c ∈ ds, isDigit c = true) → (∀ c, r.head? = some c → isDigit c = false) → pyInt (sign ++ ds) = some i → Reads key (sign ++ ds ++ r) (.int i)
  | real {key value rest : Str} {parts : List Str} {x : Rat} : key ∈ realKeys → first realPattern value = some (parts, rest) →
      pyFloatRat parts.flatten = some x → Reads key value (.float x)
  | step {value : Str} {xs : List Rat} : words value ≠ [] → Steps (words value) xs → Reads c!"STEP" value (.floats xs)

/-- What is wrong with a file, and the error: one of the marks is missing; the first entry with a known key whose value cannot be read (an
`AttributeError` for truth values and whole numbers, where nothing is matched, and a `ValueError` for real numbers); no title. -/
inductive Fault (text : Str) : Exc → Prop
  | noStart : ¬ startMark <:+: text → Fault text .attributeError
  | noEnd {a r : Str} : FirstAt startMark text a r → ¬ endMark <:+: r → Fault text .attributeError
  | value {kvs before behind : List (Str × Str)} {k v : Str} : Listed text kvs → kvs = before ++ (k, v) :: behind →
      (∀ e ∈ before, Known e.1 → ∃ x, Reads e.1 e.2 x) → Known k → (∀ x, ¬ Reads k v x) →
      Fault text (if k ∈ boolKeys ∨ k ∈ intKeys then .attributeError else .valueError)
  | noTitle {kvs : List (Str × Str)} : Listed text kvs → (∀ e ∈ kvs, Known e.1 → ∃ x, Reads e.1 e.2 x) → (∀ v, (c!"TITEL", v) ∉ kvs) →
      Fault text .keyError

/-! ### converters -/

theorem optional_parts (v : Str) : v = (optional (· == '-') v).1 ++ (optional (· == '-') v).2 ∧
    ((optional (· == '-') v).1 = [] ∨ (optional (· == '-') v).1 = ['-']) := by
  cases v with
  | nil => exact ⟨rfl, .inl rfl⟩
  | cons a as =>
    by_cases ha : a = '-'
    · subst ha
      rw [optional_take (by decide)]
      exact ⟨rfl, .inr rfl⟩
    · rw [optional_skip (by intro d hd; simp at hd; subst hd; simpa using ha)]
      exact ⟨rfl, .inl rfl⟩

theorem isAlpha_iff (w : Str) : isAlpha w = true ↔ Letters w := by
  refine ⟨fun h => ⟨?_, isAlpha_spec h⟩, fun h => ?_⟩
  · rintro rfl; cases h
  · unfold isAlpha
    have key : ∀ a b : Char, a ≤ b ↔ a.toNat ≤ b.toNat := fun a b => Iff.rfl
    have h2 := h.2
    simp only [key] at h2
    rw [Bool.and_eq_true, List.all_eq_true]
    refine ⟨by cases w with
      | nil => exact absurd rfl h.1
      | cons => rfl, ?_⟩
    intro c hc
    simp only [Bool.or_eq_true, Bool.and_eq_true, decide_eq_true_eq]
    exact h2 c hc

theorem steps_iff (ws : List Str) (xs : List Rat) : Steps ws xs ↔ Res.mapM' toFloat (ws.filter fun w => !isAlpha w) = .ok xs := by
  induction ws generalizing xs with
  | nil =>
    constructor
    · intro h; cases h; rfl
    · intro h
      cases h
      exact .done
  | cons w ws ih =>
    by_cases hw : isAlpha w = true
    · rw [List.filter_cons_of_neg (by simp [hw])]
      rw [← ih]
      constructor
      · intro h
        cases h with
        | letters _ h => exact h
        | number hn => exact absurd ((isAlpha_iff w).1 hw) hn
      · exact .letters ((isAlpha_iff w).1 hw)
    · rw [List.filter_cons_of_pos (by simpa using hw)]
      rw [Res.mapM'_eq_ok]
      have hl : ¬ Letters w := fun h => hw ((isAlpha_iff w).2 h)
      constructor
      · intro h
        cases h with
        | letters h => exact absurd h hl
        | number _ hx h => exact .cons ((Doscar.toFloat_iff _ _).2 hx) (Res.mapM'_eq_ok.1 ((ih _).1 h))
      · intro h
        cases h with
        | cons hx h => exact .number hl ((Doscar.toFloat_iff _ _).1 hx) ((ih _).2 (Res.mapM'_eq_ok.2 h))

theorem known_converter {k : Str} (h : Known k) : ∃ f, converter k = some f := by
  unfold Known textKeys boolKeys intKeys realKeys at h
  simp only [List.mem_cons, List.not_mem_nil, or_false] at h
  rcases h with h | h | h | h | h
  · rcases h with rfl | rfl | rfl <;> exact ⟨_, rfl⟩
  · rcases h with rfl | rfl | rfl <;> exact ⟨_, rfl⟩
  · rcases h with rfl | rfl | rfl <;> exact ⟨_, rfl⟩
  · rcases h with rfl | rfl | rfl | rfl | rfl | rfl | rfl | rfl | rfl | rfl | rfl | rfl | rfl | rfl | rfl <;> exact ⟨_, rfl⟩
  · subst h; exact ⟨_, rfl⟩

theorem conv_text {k : Str} (h : k ∈ textKeys) : converter k = some fun val => .ok (.text (strip val)) := by
  unfold textKeys at h
  simp only [List.mem_cons, List.not_mem_nil, or_false] at h
  rcases h with rfl | rfl | rfl <;> rfl

theorem conv_bool {k : Str} (h : k ∈ boolKeys) : converter k = some toBool := by
  unfold boolKeys at h
  simp only [List.mem_cons, List.not_mem_nil, or_false] at h
  rcases h with rfl | rfl | rfl <;> rfl

theorem conv_int {k : Str} (h : k ∈ intKeys) : converter k = some toInteger := by
  unfold intKeys at h
  simp only [List.mem_cons, List.not_mem_nil, or_false] at h
  rcases h with rfl | rfl | rfl <;> rfl

theorem conv_real {k : Str} (h : k ∈ realKeys) : converter k = some toReal := by
  unfold realKeys at h
  simp only [List.mem_cons, List.not_mem_nil, or_false] at h
  rcases h with rfl | rfl | rfl | rfl | rfl | rfl | rfl | rfl | rfl | rfl | rfl | rfl | rfl | rfl | rfl <;> rfl

theorem conv_step : converter c!"STEP" = some toReals := rfl

theorem known_of_converter {k : Str} {f : Str → Res Value} (h : converter k = some f) : Known k := by
  by_contra hk
  have : k ∉ knownKeys := by
    intro hm
    apply hk
    unfold Known textKeys boolKeys intKeys realKeys
    unfold knownKeys at hm
    simp only [List.mem_cons, List.not_mem_nil, or_false] at hm ⊢
    tauto
  rw [converter_none this] at h
  cases h

/-- What a converter gives, exactly. -/
theorem converter_reads {k v : Str} {f : Str → Res Value} (hf : converter k = some f) (x : Value) : f v = .ok x ↔ Reads k v x := by
  constructor
  · intro h
    rcases known_of_converter hf with hk | hk | hk | hk | rfl
    · rw [conv_text hk] at hf; cases hf; cases h; exact .text hk
    · rw [conv_bool hk] at hf; cases hf
      unfold toBool at h
      have key : ∀ c r, (optional (· == '.') v).2 = c :: r → v = c :: r ∨ v = '.' :: c :: r := by
        intro c r e
        cases v with
        | nil => cases e
        | cons a as =>
          by_cases ha : a = '.'
          · subst ha
            rw [optional_take (by decide)] at e
            exact .inr (by rw [← e])
          · rw [optional_skip (by intro d hd; simp at hd; subst hd; simpa using ha)] at e
            exact .inl e
      cases e : (optional (· == '.') v).2 with
      | nil => rw [e] at h; cases h
      | cons c r =>
        rw [e] at h
        dsimp only at h
        split at h
        · rename_i hc; cases h; exact .bool hk (key c r e) (.inl ⟨rfl, hc⟩)
        · split at h
          · rename_i hc; cases h; exact .bool hk (key c r e) (.inr ⟨rfl, hc⟩)
          · cases h
    · rw [conv_int hk] at hf; cases hf
      unfold toInteger at h
      dsimp only at h
      obtain ⟨e, a1, b1⟩ := spanP_split isDigit (optional (· == '-') v).2
      split at h
      · cases h
      · rename_i hne
        obtain ⟨i, hi, h⟩ := Res.bind_eq_ok.1 h
        cases h
        obtain ⟨hv, hs⟩ := optional_parts v
        have hv2 : v = (optional (· == '-') v).1 ++ (spanP isDigit (optional (· == '-') v).2).1 ++ (spanP isDigit (optional (· == '-') v).2).2 := by
          rw [List.append_assoc, ← e, ← hv]
        have hi' : pyInt ((optional (· == '-') v).1 ++ (spanP isDigit (optional (· == '-') v).2).1) = some i := by
          unfold toInt at hi
          split at hi
          · rename_i j hj; cases hi; exact hj
          · cases hi
        rw [hv2]
        exact .int hk hs hne a1 b1 hi'
    · rw [conv_real hk] at hf; cases hf
      unfold toReal at h
      obtain ⟨y, hy, h⟩ := Res.bind_eq_ok.1 h
      cases h
      obtain ⟨m, hm, hw⟩ := C154_real v
      rw [← hw] at hy
      exact .real (parts := m.1) (rest := m.2) hk hm ((Doscar.toFloat_iff _ _).1 hy)
    · rw [conv_step] at hf; cases hf
      unfold toReals at h
      split at h
      · cases h
      · rename_i hne
        obtain ⟨xs, hx, h⟩ := Res.bind_eq_ok.1 h
        cases h
        exact .step hne ((steps_iff _ _).2 hx)
  · intro h
    cases h with
    | text hk => rw [conv_text hk] at hf; cases hf; rfl
    | bool hk hv hb =>
      obtain ⟨g, hg, h⟩ := converter_means (.bool hk hv hb)
      rw [hf] at hg; cases hg; exact h
    | int hk hs hd hds hr hi =>
      obtain ⟨g, hg, h⟩ := converter_means (.int hk hs hd hds hr hi)
      rw [hf] at hg; cases hg; exact h
    | real hk hm hx =>
      rw [conv_real hk] at hf; cases hf
      obtain ⟨m, hm', hw⟩ := C154_real v
      rw [hm] at hm'
      cases hm'
      unfold toReal
      rw [← hw, (Doscar.toFloat_iff _ _).2 hx]
      rfl
    | step hne hs =>
      rw [conv_step] at hf; cases hf
      unfold toReals
      rw [if_neg hne, (steps_iff _ _).1 hs]
      rfl

theorem toFloat_err {w : Str} {e : Exc} (h : toFloat w = .raise e) : e = .valueError ∨ e = .outOfModel := by
  unfold toFloat at h
  split at h
  · cases h
  · cases h; exact .inr rfl
  · cases h; exact .inl rfl

theorem mapM'_no_exit (ws : List Str) (n : Nat) : Res.mapM' toFloat ws ≠ .exit n := by
  induction ws with
  | nil => intro h; cases h
  | cons w ws ih =>
    intro h
    unfold Res.mapM' at h
    cases hw : toFloat w with
    | ok x =>
      rw [hw] at h
      cases hr : Res.mapM' toFloat ws with
      | ok xs => rw [hr] at h; cases h
      | raise e' => rw [hr] at h; cases h
      | exit m => rw [hr] at h; cases h; exact ih hr
    | raise e' => rw [hw] at h; cases h
    | exit m =>
      unfold toFloat at hw
      split at hw <;> cases hw

theorem mapM'_toFloat_err {ws : List Str} {e : Exc} (h : Res.mapM' toFloat ws = .raise e) : e = .valueError ∨ e = .outOfModel := by
  induction ws with
  | nil => cases h
  | cons w ws ih =>
    unfold Res.mapM' at h
    cases hw : toFloat w with
    | ok x =>
      rw [hw] at h
      cases hr : Res.mapM' toFloat ws with
      | ok xs => rw [hr] at h; cases h
      | raise e' => rw [hr] at h; cases h; exact ih hr
      | exit n => rw [hr] at h; cases h
    | raise e' => rw [hw] at h; cases h; exact toFloat_err hw
    | exit n => rw [hw] at h; cases h

theorem exclusive : (∀ k ∈ textKeys, k ∉ boolKeys ∧ k ∉ intKeys) ∧ (∀ k ∈ realKeys, k ∉ boolKeys ∧ k ∉ intKeys) ∧
    c!"STEP" ∉ boolKeys ∧ c!"STEP" ∉ intKeys := by decide +kernel

/-- The error of a value. -/
theorem converter_fails {k v : Str} {f : Str → Res Value} (hf : converter k = some f) {r : Res Value} (hr : f v = r) (hx : ∀ x, r ≠ .ok x) :
    r = .raise .outOfModel ∨ r = .raise (if k ∈ boolKeys ∨ k ∈ intKeys then .attributeError else .valueError) := by
  rcases known_of_converter hf with hk | hk | hk | hk | rfl
  · rw [conv_text hk] at hf; cases hf
    exact absurd hr.symm (hx _)
  · rw [if_pos (.inl hk)]
    rw [conv_bool hk] at hf; cases hf
    subst hr
    unfold toBool at hx ⊢
    split
    · split
      · rename_i h1 h2; rw [h1] at hx; simp [h2] at hx
      · split
        · rename_i h1 h2 h3; rw [h1] at hx; simp [h2, h3] at hx
        · exact .inr rfl
    · exact .inr rfl
  · rw [if_pos (.inr hk)]
    rw [conv_int hk] at hf; cases hf
    have hn : ∀ i, ¬ toInteger v = .ok (.int i) := fun i h => hx (.int i) (hr ▸ h)
    subst hr
    obtain ⟨e, a1, b1⟩ := spanP_split isDigit (optional (· == '-') v).2
    obtain ⟨hv, hs⟩ := optional_parts v
    unfold toInteger at hn ⊢
    dsimp only at hn ⊢
    split
    · exact .inr rfl
    · rename_i hne
      rw [if_neg hne] at hn
      exfalso
      have : ∃ i, pyInt ((optional (· == '-') v).1 ++ (spanP isDigit (optional (· == '-') v).2).1) = some i := by
        rcases hs with h | h
        · rw [h]; exact ⟨_, pyInt_digits a1 hne⟩
        · rw [h]; exact ⟨_, pyInt_neg_digits a1 hne⟩
      obtain ⟨i, hi⟩ := this
      apply hn i
      unfold toInt
      rw [hi]
      rfl
  · rw [if_neg (by have := exclusive.2.1 k hk; tauto)]
    rw [conv_real hk] at hf; cases hf
    unfold toReal at hr
    cases hw : toFloat (floatPart v) with
    | ok x => rw [hw] at hr; exact absurd hr.symm (hx _)
    | raise e =>
      rw [hw] at hr
      rcases toFloat_err hw with rfl | rfl
      · exact .inr hr.symm
      · exact .inl hr.symm
    | exit n =>
      unfold toFloat at hw
      split at hw <;> cases hw
  · rw [if_neg (by have := exclusive.2.2; tauto)]
    rw [conv_step] at hf; cases hf
    unfold toReals at hr
    split at hr
    · exact .inr hr.symm
    · cases hw : Res.mapM' toFloat ((words v).filter fun w => !isAlpha w) with
      | ok x => rw [hw] at hr; exact absurd hr.symm (hx _)
      | raise e =>
        rw [hw] at hr
        rcases mapM'_toFloat_err hw with rfl | rfl
        · exact .inr hr.symm
        · exact .inl hr.symm
      | exit n =>
        exact absurd hw (mapM'_no_exit _ _)

/-! ### entries -/

theorem mem_mid {kvs a b : List (Str × Str)} {k v : Str} (h : kvs = a ++ (k, v) :: b) : (k, v) ∈ kvs := by rw [h]; simp

theorem listed_iff (text : Str) (kvs : List (Str × Str)) :
    Listed text kvs ↔ ∃ lines, region text = .ok lines ∧ kvs = findAll lines.length lines := by
  constructor
  · rintro ⟨a, r, m, b, l, f1, f2, hl, rfl⟩
    refine ⟨_, region_ok.2 ⟨a, r, m, b, f1, f2, rfl⟩, ?_⟩
    obtain ⟨l', hl', he⟩ := C154_entries (startMark ++ m ++ endMark)
    rw [he, FindAll.unique hl hl']
  · rintro ⟨lines, hr, rfl⟩
    obtain ⟨a, r, m, b, f1, f2, rfl⟩ := region_ok.1 hr
    obtain ⟨l', hl', he⟩ := C154_entries (startMark ++ m ++ endMark)
    exact ⟨a, r, m, b, l', f1, f2, hl', he⟩

theorem region_fails {text : Str} {r : Res Str} (hr : region text = r) (hx : ∀ l, r ≠ .ok l) :
    r = .raise .attributeError ∧ Fault text .attributeError := by
  have h1 : startMark ≠ [] := by decide
  have h2 : endMark ≠ [] := by decide
  unfold region at hr
  split at hr
  · rename_i a q hc
    split at hr
    · exact absurd hr.symm (hx _)
    · rename_i hn
      refine ⟨hr.symm, .noEnd ((cut_some h1).1 hc) ?_⟩
      rcases hc2 : cut endMark q with ⟨m, _ | b⟩
      · exact ((cut_none h2).1 (by rw [hc2])).2
      · exact absurd hc2 (hn m b)
  · rename_i hn
    refine ⟨hr.symm, .noStart ?_⟩
    rcases hc2 : cut startMark text with ⟨m, _ | b⟩
    · exact ((cut_none h1).1 (by rw [hc2])).2
    · exact absurd hc2 (hn m b)

theorem lastValue_exists {kvs : List (Str × Str)} {k v : Str} (h : (k, v) ∈ kvs) : ∃ w, LastValue kvs k w := by
  induction kvs generalizing v with
  | nil => cases h
  | cons e rest ih =>
    by_cases hr : ∃ w, (k, w) ∈ rest
    · obtain ⟨w, hw⟩ := hr
      obtain ⟨x, a, b, he, hb⟩ := ih hw
      exact ⟨x, e :: a, b, by rw [he]; rfl, hb⟩
    · rcases List.mem_cons.1 h with rfl | h
      · exact ⟨v, [], rest, rfl, fun x hx hk => hr ⟨x.2, by rw [← hk]; exact hx⟩⟩
      · exact absurd ⟨v, h⟩ hr

theorem collect_readable {d md : Dict Str Value} {kvs : List (Str × Str)} (h : collect d kvs = .ok md) :
    ∀ e ∈ kvs, Known e.1 → ∃ x, Reads e.1 e.2 x := by
  induction kvs generalizing d with
  | nil => intro e he; cases he
  | cons e0 r ih =>
    obtain ⟨k0, v0⟩ := e0
    rw [collect] at h
    intro e he hk
    cases hc : converter k0 with
    | none =>
      rw [hc] at h
      rcases List.mem_cons.1 he with rfl | he
      · obtain ⟨f, hf⟩ := known_converter hk
        rw [hc] at hf; cases hf
      · exact ih h e he hk
    | some f =>
      rw [hc] at h
      dsimp only at h
      obtain ⟨x, hx, h⟩ := Res.bind_eq_ok.1 h
      rcases List.mem_cons.1 he with rfl | he
      · exact ⟨x, (converter_reads hc x).1 hx⟩
      · exact ih h e he hk

/-- What happens if the entries cannot be collected. -/
theorem collect_fails {kvs : List (Str × Str)} {d : Dict Str Value} {r : Res (Dict Str Value)} (hr : collect d kvs = r) (hx : ∀ md, r ≠ .ok md) :
    ∃ before k v behind, kvs = before ++ (k, v) :: behind ∧ (∀ e ∈ before, Known e.1 → ∃ x, Reads e.1 e.2 x) ∧ Known k ∧ (∀ x, ¬ Reads k v x) ∧
      (r = .raise .outOfModel ∨ r = .raise (if k ∈ boolKeys ∨ k ∈ intKeys then .attributeError else .valueError)) := by
  induction kvs generalizing d with
  | nil => exact absurd hr.symm (hx _)
  | cons e0 rest ih =>
    obtain ⟨k0, v0⟩ := e0
    rw [collect] at hr
    cases hc : converter k0 with
    | none =>
      rw [hc] at hr
      obtain ⟨before, k, v, behind, he, hb, hk⟩ := ih hr
      refine ⟨(k0, v0) :: before, k, v, behind, by rw [he]; rfl, ?_, hk⟩
      intro e hm hkn
      rcases List.mem_cons.1 hm with rfl | hm
      · obtain ⟨f, hf⟩ := known_converter hkn
        rw [hc] at hf; cases hf
      · exact hb e hm hkn
    | some f =>
      rw [hc] at hr
      dsimp only at hr
      by_cases hok : ∃ x, f v0 = .ok x
      · obtain ⟨x, hxx⟩ := hok
        rw [hxx, Res.ok_bind] at hr
        obtain ⟨before, k, v, behind, he, hb, hk⟩ := ih hr
        refine ⟨(k0, v0) :: before, k, v, behind, by rw [he]; rfl, ?_, hk⟩
        intro e hm hkn
        rcases List.mem_cons.1 hm with rfl | hm
        · exact ⟨x, (converter_reads hc x).1 hxx⟩
        · exact hb e hm hkn
      · refine ⟨[], k0, v0, rest, rfl, by simp, known_of_converter hc, fun x h => hok ⟨x, (converter_reads hc x).2 h⟩, ?_⟩
        rcases converter_fails hc rfl (fun x h => hok ⟨x, h⟩) with h | h
        · rw [h] at hr; exact .inl hr.symm
        · rw [h] at hr; exact .inr hr.symm

theorem first_unreadable {kvs a b a' b' : List (Str × Str)} {k v k' v' : Str} (h : kvs = a ++ (k, v) :: b) (h' : kvs = a' ++ (k', v') :: b')
    (ha : ∀ e ∈ a, Known e.1 → ∃ x, Reads e.1 e.2 x) (ha' : ∀ e ∈ a', Known e.1 → ∃ x, Reads e.1 e.2 x)
    (hk : Known k) (hv : ∀ x, ¬ Reads k v x) (hk' : Known k') (hv' : ∀ x, ¬ Reads k' v' x) : k = k' := by
  rw [h] at h'
  rcases List.append_eq_append_iff.1 h' with ⟨t, h1, h2⟩ | ⟨t, h1, h2⟩
  · cases t with
    | nil => simp at h2; exact h2.1.1
    | cons e t =>
      simp only [List.cons_append, List.cons.injEq] at h2
      obtain ⟨x, hx⟩ := ha' (k, v) (by rw [h1, h2.1]; simp) hk
      exact absurd hx (hv x)
  · cases t with
    | nil => simp at h2; exact h2.1.1.symm
    | cons e t =>
      simp only [List.cons_append, List.cons.injEq] at h2
      obtain ⟨x, hx⟩ := ha (k', v') (by rw [h1, h2.1]; simp) hk'
      exact absurd hx (hv' x)

/-- The title of collected metadata. -/
theorem title {kvs : List (Str × Str)} {md : Dict Str Value} (h : collect [] kvs = .ok md) :
    (∃ t, md.get? c!"TITEL" = some (.text t) ∧ ∃ v, (c!"TITEL", v) ∈ kvs) ∨ md.get? c!"TITEL" = none ∧ ∀ v, (c!"TITEL", v) ∉ kvs := by
  by_cases ht : ∃ v, (c!"TITEL", v) ∈ kvs
  · obtain ⟨v, hv⟩ := ht
    obtain ⟨w, hw⟩ := lastValue_exists hv
    obtain ⟨x, hx, hg⟩ := (collect_ok kvs h).2 c!"TITEL" w _ hw rfl
    cases hx
    exact .inl ⟨_, hg, v, hv⟩
  · refine .inr ⟨?_, fun v hv => ht ⟨v, hv⟩⟩
    rw [(collect_ok kvs h).1 _ (.inl fun e he hk => ht ⟨e.2, by rw [← hk]; exact he⟩)]
    rfl

/-! ### theorems -/

/-- C155: which files are accepted: both marks are there, every value printed for a known key can be read, and there is a title. -/
theorem C155_accepted (text : Str) : (∃ d, init none (some text) = .ok d) ↔
    ∃ kvs, Listed text kvs ∧ (∀ e ∈ kvs, Known e.1 → ∃ x, Reads e.1 e.2 x) ∧ ∃ v, (c!"TITEL", v) ∈ kvs := by
  constructor
  · rintro ⟨d, h⟩
    obtain ⟨lines, t, hl, hm, ht, _⟩ := fromText_ok h
    refine ⟨_, (listed_iff _ _).2 ⟨lines, hl, rfl⟩, collect_readable hm, ?_⟩
    rcases title hm with ⟨_, _, h⟩ | ⟨h, _⟩
    · exact h
    · rw [ht] at h; cases h
  · rintro ⟨kvs, hL, hR, v, hv⟩
    obtain ⟨lines, hl, rfl⟩ := (listed_iff _ _).1 hL
    obtain ⟨md, hmd⟩ := collect_accepts (findAll lines.length lines) [] (by
      intro e he f hf
      obtain ⟨x, hx⟩ := hR e he (known_of_converter hf)
      exact ⟨x, (converter_reads hf x).2 hx⟩)
    rcases title hmd with ⟨t, ht, _⟩ | ⟨_, h⟩
    · refine ⟨⟨md, symbolOf t, (split1 '_' (symbolOf t)).1⟩, ?_⟩
      show fromText text = _
      unfold fromText
      rw [hl, Res.ok_bind, hmd, Res.ok_bind, ht]
    · exact absurd hv (h v)

/-- C155: exactly what an accepted file stores under a key: what is read from the value printed last for it. Nothing is stored under other keys. -/
theorem C155_metadata (text : Str) (d : Data) (h : init none (some text) = .ok d) (kvs : List (Str × Str)) (hL : Listed text kvs) (k : Str) (x : Value) :
    d.metadata.get? k = some x ↔ ∃ v, LastValue kvs k v ∧ Reads k v x := by
  obtain ⟨lines, t, hl, hm, ht, _⟩ := fromText_ok h
  obtain ⟨lines', hl', rfl⟩ := (listed_iff _ _).1 hL
  rw [hl] at hl'; cases hl'
  obtain ⟨c1, c2⟩ := collect_ok _ hm
  constructor
  · intro hg
    have hk : ∃ f, converter k = some f := by
      cases hc : converter k with
      | none => rw [c1 k (.inr hc)] at hg; cases hg
      | some f => exact ⟨f, rfl⟩
    obtain ⟨f, hf⟩ := hk
    have hv : ∃ v, (k, v) ∈ findAll lines.length lines := by
      by_contra hn
      rw [c1 k (.inl fun e he hk => hn ⟨e.2, by rw [← hk]; exact he⟩)] at hg
      cases hg
    obtain ⟨v, hv⟩ := hv
    obtain ⟨w, hw⟩ := lastValue_exists hv
    obtain ⟨y, hy, hgy⟩ := c2 k w f hw hf
    rw [hg] at hgy; cases hgy
    exact ⟨w, hw, (converter_reads hf x).1 hy⟩
  · rintro ⟨v, hv, hr⟩
    have hk : Known k := by
      cases hr with
      | text h => exact .inl h
      | bool h => exact .inr (.inl h)
      | int h => exact .inr (.inr (.inl h))
      | real h => exact .inr (.inr (.inr (.inl h)))
      | step => exact .inr (.inr (.inr (.inr rfl)))
    obtain ⟨f, hf⟩ := known_converter hk
    obtain ⟨y, hy, hgy⟩ := c2 k v f hv hf
    rw [(converter_reads hf x).2 hr] at hy; cases hy
    exact hgy

/-- C155: every file is accepted or has a fault, and the error is that of the fault. A `STEP` with a signed `inf` or `nan`, which `float` takes, is
outside of the model and excluded. -/
theorem C155_refused (text : Str) (hin : init none (some text) ≠ .raise .outOfModel) :
    (∃ d, init none (some text) = .ok d) ∨ ∃ e, Fault text e ∧ init none (some text) = .raise e := by
  show (∃ d, fromText text = .ok d) ∨ ∃ e, Fault text e ∧ fromText text = .raise e
  have hin' : fromText text ≠ .raise .outOfModel := hin
  unfold fromText at hin' ⊢
  by_cases h1 : ∃ lines, region text = .ok lines
  · obtain ⟨lines, hl⟩ := h1
    rw [hl, Res.ok_bind] at hin' ⊢
    have hL : Listed text (findAll lines.length lines) := (listed_iff _ _).2 ⟨lines, hl, rfl⟩
    by_cases h2 : ∃ md, collect [] (findAll lines.length lines) = .ok md
    · obtain ⟨md, hm⟩ := h2
      rw [hm, Res.ok_bind]
      rcases title hm with ⟨t, ht, _⟩ | ⟨hn, h⟩
      · rw [ht]; exact .inl ⟨_, rfl⟩
      · rw [hn]; exact .inr ⟨_, .noTitle hL (collect_readable hm) h, rfl⟩
    · obtain ⟨before, k, v, behind, he, hb, hk, hu, hr⟩ := collect_fails (r := collect [] (findAll lines.length lines)) rfl (fun md h => h2 ⟨md, h⟩)
      rcases hr with hr | hr
      · rw [hr] at hin'; exact absurd rfl hin'
      · rw [hr]; exact .inr ⟨_, .value hL he hb hk hu, rfl⟩
  · obtain ⟨hr, hf⟩ := region_fails (r := region text) rfl (fun l h => h1 ⟨l, h⟩)
    rw [hr]; exact .inr ⟨_, hf, rfl⟩

theorem listed_unique {text : Str} {a b : List (Str × Str)} (ha : Listed text a) (hb : Listed text b) : a = b := by
  obtain ⟨l, h, rfl⟩ := (listed_iff _ _).1 ha
  obtain ⟨l', h', rfl⟩ := (listed_iff _ _).1 hb
  rw [h] at h'; cases h'; rfl

/-- C155: the entries of a file, the meaning of a value and the fault of a file are unique, and a file with a fault is not accepted. -/
theorem C155_unique (text : Str) : (∀ a b, Listed text a → Listed text b → a = b) ∧
    (∀ k v x y, Reads k v x → Reads k v y → x = y) ∧ (∀ e e', Fault text e → Fault text e' → e = e') ∧
    ∀ e, Fault text e → ¬ ∃ d, init none (some text) = .ok d := by
  have hreads : ∀ k v x y, Reads k v x → Reads k v y → x = y := by
    intro k v x y hx hy
    have hk : Known k := by
      cases hx with
      | text h => exact .inl h
      | bool h => exact .inr (.inl h)
      | int h => exact .inr (.inr (.inl h))
      | real h => exact .inr (.inr (.inr (.inl h)))
      | step => exact .inr (.inr (.inr (.inr rfl)))
    obtain ⟨f, hf⟩ := known_converter hk
    have h1 := (converter_reads hf x).2 hx
    rw [(converter_reads hf y).2 hy] at h1
    cases h1; rfl
  have h1 : startMark ≠ [] := by decide
  have h2 : endMark ≠ [] := by decide
  have noS : ∀ {a r}, FirstAt startMark text a r → ¬ ¬ startMark <:+: text := by
    rintro a r ⟨he, _⟩ hn
    exact hn ⟨a, r, he.symm⟩
  have lS : ∀ {kvs}, Listed text kvs → ¬ ¬ startMark <:+: text := by
    rintro kvs ⟨a, r, m, b, l, f1, _⟩; exact noS f1
  have lE : ∀ {kvs a r}, Listed text kvs → FirstAt startMark text a r → ¬ ¬ endMark <:+: r := by
    rintro kvs a r ⟨a', r', m, b, l, f1, f2, _⟩ f hn
    have e1 := (cut_some h1).2 f1
    rw [(cut_some h1).2 f] at e1
    cases e1
    exact hn ⟨m, b, f2.1.symm⟩
  refine ⟨fun a b => listed_unique, hreads, ?_, ?_⟩
  · intro e e' h h'
    cases h with
    | noStart hn =>
      cases h' with
      | noStart => rfl
      | noEnd => rfl
      | value hL => exact absurd hn (lS hL)
      | noTitle hL => exact absurd hn (lS hL)
    | noEnd f hn =>
      cases h' with
      | noStart => rfl
      | noEnd => rfl
      | value hL => exact absurd hn (lE hL f)
      | noTitle hL => exact absurd hn (lE hL f)
    | value hL he hb hk hu =>
      cases h' with
      | noStart hn => exact absurd hn (lS hL)
      | noEnd f hn => exact absurd hn (lE hL f)
      | value hL' he' hb' hk' hu' =>
        cases listed_unique hL hL'
        rw [first_unreadable he he' hb hb' hk hu hk' hu']
      | noTitle hL' hR =>
        cases listed_unique hL hL'
        obtain ⟨x, hx⟩ := hR _ (mem_mid he) hk
        exact absurd hx (hu x)
    | noTitle hL hR ht =>
      cases h' with
      | noStart hn => exact absurd hn (lS hL)
      | noEnd f hn => exact absurd hn (lE hL f)
      | value hL' he' hb' hk' hu' =>
        cases listed_unique hL hL'
        obtain ⟨x, hx⟩ := hR _ (mem_mid he') hk'
        exact absurd hx (hu' x)
      | noTitle => rfl
  · intro e h hd
    obtain ⟨kvs, hL, hR, v, hv⟩ := (C155_accepted text).1 hd
    cases h with
    | noStart hn => exact lS hL hn
    | noEnd f hn => exact lE hL f hn
    | value hL' he' hb' hk' hu' =>
      cases listed_unique hL hL'
      obtain ⟨x, hx⟩ := hR _ (mem_mid he') hk'
      exact absurd hx (hu' x)
    | noTitle hL' _ ht =>
      cases listed_unique hL hL'
      exact ht v hv

/-! ### examples -/

theorem small_listed : Listed small smallEntries :=
  (listed_iff _ _).2 ⟨startMark ++ smallMiddle ++ endMark, region_ok.2 ⟨_, _, _, _, small_first, small_second, rfl⟩, by decide +kernel⟩

example : ∃ kvs, Listed small kvs ∧ (∀ e ∈ kvs, Known e.1 → ∃ x, Reads e.1 e.2 x) ∧ ∃ v, (c!"TITEL", v) ∈ kvs :=
  (C155_accepted small).1 ⟨_, (by decide +kernel : init none (some small) =
    .ok ⟨[(c!"TITEL", .text c!"PAW W"), (c!"RWIGS", .float (164/100))], c!"W", c!"W"⟩)⟩

/-- The second radius counts, with the text behind it left out. -/
example (d : Data) (h : init none (some small) = .ok d) : d.metadata.get? c!"RWIGS" = some (.float (164/100)) :=
  (C155_metadata small d h _ small_listed _ _).2 ⟨c!"1.64 (au A)", ⟨[(c!"TITEL", c!"PAW W"), (c!"RWIGS", c!"3.1")], [(c!"FOO", c!"x")], rfl, by decide⟩,
    .real (parts := [[], ['1'], ['.'], ['6', '4'], [], [], []]) (rest := c!" (au A)") (by decide) rfl (by decide +kernel)⟩

/-- An exponent with a plus sign: the match ends at `0.2E`, which is no number. -/
def plus : Str := c!"parameters from PSCTR are:\n TITEL = PAW W\n ENMAX = 0.2E+03\nEND of PSCTR-controll parameters\n"

example : ∃ e, Fault plus e ∧ init none (some plus) = .raise e := by
  have h : init none (some plus) = .raise .valueError := by decide +kernel
  rcases C155_refused plus (by rw [h]; intro h; cases h) with ⟨d, hd⟩ | he
  · rw [h] at hd; cases hd
  · exact he

/-- A truth value that begins otherwise: an `AttributeError`; no title: a `KeyError`; no second mark: an `AttributeError`. -/
example : init none (some c!"parameters from PSCTR are:\n TITEL = PAW W\n LCOR = yes\nEND of PSCTR-controll parameters\n") = .raise .attributeError ∧
    init none (some c!"parameters from PSCTR are:\n LCOR = T\nEND of PSCTR-controll parameters\n") = .raise .keyError ∧
    init none (some c!"parameters from PSCTR are:\n TITEL = PAW W\n") = .raise .attributeError := by decide +kernel

example : Reads c!"STEP" c!"   20.000   1.050" (.floats [20, 105/100]) :=
  .step (by decide) (.number (fun h => by rcases h.2 '2' (by decide) with h | h <;> exact absurd h.1 (by decide)) (by decide +kernel)
    (.number (fun h => by rcases h.2 '1' (by decide) with h | h <;> exact absurd h.1 (by decide)) (by decide +kernel) .done))

end Verif.Potcar.Accepts
