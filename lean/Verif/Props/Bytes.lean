import Verif.Model.Bytes
import Verif.Props.LineEnds
import Verif.Props.Killed
import Verif.Model.Potcar
import Verif.Model.DoscarFull
import Verif.Model.EigenvalFull
import Verif.Model.ChgcarFull
import Verif.Model.Outcar
/-! # C147: files are sequences of bytes -/
set_option autoImplicit false
namespace Verif.Bytes
open Verif

/-! ### specification -/

/-- The UTF-8 form of a code point (RFC 3629). -/
def utf8 (n : Nat) : Bytes :=
  if n < 0x80 then [n]
  else if n < 0x800 then [0xC0 + n / 64, 0x80 + n % 64]
  else if n < 0x10000 then [0xE0 + n / 4096, 0x80 + n / 64 % 64, 0x80 + n % 64]
  else [0xF0 + n / 262144, 0x80 + n / 4096 % 64, 0x80 + n / 64 % 64, 0x80 + n % 64]

/-- The bytes of a text. -/
def encode (t : Str) : Bytes := t.flatMap fun c => utf8 c.toNat

example : encode c!"aé€😀" = [0x61, 0xC3, 0xA9, 0xE2, 0x82, 0xAC, 0xF0, 0x9F, 0x98, 0x80] := by decide

/-! ### one character -/

theorem toNat_valid (c : Char) : c.toNat < 0xD800 ∨ 0xDFFF < c.toNat ∧ c.toNat < 0x110000 := c.valid

theorem ofNat_toNat {n : Nat} (h : n < 0xD800 ∨ 0xDFFF < n ∧ n < 0x110000) : (Char.ofNat n).toNat = n := by
  unfold Char.ofNat
  rw [dif_pos (show n.isValidChar from h)]
  rfl

theorem ofNat_eq {c : Char} {n : Nat} (h : n = c.toNat) : Char.ofNat n = c := by rw [h, Char.ofNat_toNat]

theorem decodeOne_encode (c : Char) (r : Bytes) : decodeOne (utf8 c.toNat ++ r) = some (c, r) := by
  have hv := toNat_valid c
  unfold utf8
  split
  · rename_i h
    simp [decodeOne, h, Char.ofNat_toNat]
  split
  · rename_i h1 h2
    have e1 : ¬ 0xC0 + c.toNat / 64 < 0x80 := by omega
    have e2 : ¬ 0xC0 + c.toNat / 64 < 0xC2 := by omega
    have e3 : 0xC0 + c.toNat / 64 < 0xE0 := by omega
    have e4 : cont (0x80 + c.toNat % 64) = true := by simp only [cont, Bool.and_eq_true, decide_eq_true_eq]; omega
    simp only [List.cons_append, List.nil_append, decodeOne, if_neg e1, if_neg e2, if_pos e3, e4, if_true]
    rw [ofNat_eq]
    omega
  split
  · rename_i h1 h2 h3
    have e1 : ¬ 0xE0 + c.toNat / 4096 < 0x80 := by omega
    have e2 : ¬ 0xE0 + c.toNat / 4096 < 0xC2 := by omega
    have e3 : ¬ 0xE0 + c.toNat / 4096 < 0xE0 := by omega
    have e4 : 0xE0 + c.toNat / 4096 < 0xF0 := by omega
    have e5 : (cont (0x80 + c.toNat / 64 % 64) && cont (0x80 + c.toNat % 64) && !(0xE0 + c.toNat / 4096 == 0xE0 && decide (0x80 + c.toNat / 64 % 64 < 0xA0)) &&
        !(0xE0 + c.toNat / 4096 == 0xED && decide (0xA0 ≤ 0x80 + c.toNat / 64 % 64))) = true := by
      simp only [cont, Bool.and_eq_true, Bool.not_eq_true', Bool.and_eq_false_iff, decide_eq_true_eq, decide_eq_false_iff_not, beq_eq_false_iff_ne, ne_eq]
      omega
    simp only [List.cons_append, List.nil_append, decodeOne, if_neg e1, if_neg e2, if_neg e3, if_pos e4]
    rw [if_pos e5, ofNat_eq]
    omega
  · rename_i h1 h2 h3
    have e1 : ¬ 0xF0 + c.toNat / 262144 < 0x80 := by omega
    have e2 : ¬ 0xF0 + c.toNat / 262144 < 0xC2 := by omega
    have e3 : ¬ 0xF0 + c.toNat / 262144 < 0xE0 := by omega
    have e4 : ¬ 0xF0 + c.toNat / 262144 < 0xF0 := by omega
    have e6 : 0xF0 + c.toNat / 262144 < 0xF5 := by omega
    have e5 : (cont (0x80 + c.toNat / 4096 % 64) && cont (0x80 + c.toNat / 64 % 64) && cont (0x80 + c.toNat % 64) &&
        !(0xF0 + c.toNat / 262144 == 0xF0 && decide (0x80 + c.toNat / 4096 % 64 < 0x90)) &&
        !(0xF0 + c.toNat / 262144 == 0xF4 && decide (0x90 ≤ 0x80 + c.toNat / 4096 % 64))) = true := by
      simp only [cont, Bool.and_eq_true, Bool.not_eq_true', Bool.and_eq_false_iff, decide_eq_true_eq, decide_eq_false_iff_not, beq_eq_false_iff_ne, ne_eq]
      omega
    simp only [List.cons_append, List.nil_append, decodeOne, if_neg e1, if_neg e2, if_neg e3, if_neg e4, if_pos e6]
    rw [if_pos e5, ofNat_eq]
    omega

theorem decodeOne_sound {b r : Bytes} {c : Char} (h : decodeOne b = some (c, r)) : b = utf8 c.toNat ++ r := by
  unfold decodeOne at h
  split at h
  · cases h
  rename_i a s
  split at h
  · rename_i h1
    cases h
    rw [ofNat_toNat (by omega)]
    simp [utf8, h1]
  split at h
  · cases h
  split at h
  · split at h
    · rename_i h1 h2 h3 _ b r
      split at h
      · rename_i h4
        obtain ⟨rfl, rfl⟩ := Prod.mk.inj (Option.some.inj h)
        simp only [cont, Bool.and_eq_true, decide_eq_true_eq] at h4
        rw [ofNat_toNat (by omega)]
        unfold utf8
        rw [if_neg (by omega), if_pos (by omega)]
        simp only [List.cons_append, List.nil_append, List.cons.injEq, and_true]
        omega
      · cases h
    · cases h
  split at h
  · split at h
    · rename_i h1 h2 h3 h5 _ b c r
      split at h
      · rename_i h4
        obtain ⟨rfl, rfl⟩ := Prod.mk.inj (Option.some.inj h)
        simp only [cont, Bool.and_eq_true, Bool.not_eq_true', Bool.and_eq_false_iff, decide_eq_true_eq, decide_eq_false_iff_not, beq_eq_false_iff_ne, ne_eq] at h4
        rw [ofNat_toNat (by omega)]
        unfold utf8
        rw [if_neg (by omega), if_neg (by omega), if_pos (by omega)]
        simp only [List.cons_append, List.nil_append, List.cons.injEq, and_true]
        omega
      · cases h
    · cases h
  split at h
  · split at h
    · rename_i h1 h2 h3 h5 h6 _ b c d r
      split at h
      · rename_i h4
        obtain ⟨rfl, rfl⟩ := Prod.mk.inj (Option.some.inj h)
        simp only [cont, Bool.and_eq_true, Bool.not_eq_true', Bool.and_eq_false_iff, decide_eq_true_eq, decide_eq_false_iff_not, beq_eq_false_iff_ne, ne_eq] at h4
        rw [ofNat_toNat (by omega)]
        unfold utf8
        rw [if_neg (by omega), if_neg (by omega), if_neg (by omega)]
        simp only [List.cons_append, List.nil_append, List.cons.injEq, and_true]
        omega
      · cases h
    · cases h
  · cases h

/-! ### texts -/

theorem utf8_cons (n : Nat) : ∃ a r, utf8 n = a :: r := by
  unfold utf8
  split
  · exact ⟨_, _, rfl⟩
  split
  · exact ⟨_, _, rfl⟩
  split <;> exact ⟨_, _, rfl⟩

theorem encode_cons (c : Char) (t : Str) : encode (c :: t) = utf8 c.toNat ++ encode t := rfl

theorem encode_append (a b : Str) : encode (a ++ b) = encode a ++ encode b := List.flatMap_append

theorem decodeAux_encode (t : Str) : ∀ n, (encode t).length ≤ n → decodeAux n (encode t) = some t := by
  induction t with
  | nil => intro n _; cases n <;> rfl
  | cons c t ih =>
    intro n hn
    have h1 := decodeOne_encode c (encode t)
    rw [encode_cons] at hn ⊢
    obtain ⟨a, r, hu⟩ := utf8_cons c.toNat
    rw [hu] at h1 hn ⊢
    cases n with
    | zero => simp at hn
    | succ n =>
      have h2 := ih n (by simp at hn; omega)
      simp only [List.cons_append] at h1 ⊢
      simp only [decodeAux, h1, Option.bind_some, h2, Option.map_some]

theorem decodeAux_sound : ∀ (n : Nat) (b : Bytes) (t : Str), decodeAux n b = some t → b = encode t := by
  intro n
  induction n with
  | zero =>
    intro b t h
    cases b with
    | nil => simp [decodeAux] at h; subst h; rfl
    | cons => simp [decodeAux] at h
  | succ n ih =>
    intro b t h
    cases b with
    | nil => simp [decodeAux] at h; subst h; rfl
    | cons a r =>
      simp only [decodeAux] at h
      obtain ⟨⟨c, r'⟩, h1, h2⟩ := Option.bind_eq_some_iff.1 h
      obtain ⟨s, h3, rfl⟩ := Option.map_eq_some_iff.1 h2
      rw [decodeOne_sound h1, encode_cons, ← ih _ _ h3]

/-- **C147**, decoding: exactly the UTF-8 forms of texts are accepted, and each is read as its text. -/
theorem C147_decode (b : Bytes) (t : Str) : decode b = some t ↔ b = encode t :=
  ⟨decodeAux_sound _ _ _, by rintro rfl; exact decodeAux_encode t _ le_rfl⟩

theorem encode_injective {s t : Str} (h : encode s = encode t) : s = t := by
  have := (C147_decode (encode s) t).2 h
  rw [(C147_decode (encode s) s).2 rfl] at this
  exact Option.some.inj this

/-- A beginning that is the form of a text is the form of a beginning of the text. -/
theorem encode_prefix : ∀ (s t : Str) (r : Bytes), encode t = encode s ++ r → ∃ u, t = s ++ u ∧ r = encode u := by
  intro s
  induction s with
  | nil => intro t r h; exact ⟨t, rfl, h.symm⟩
  | cons c s ih =>
    intro t r h
    cases t with
    | nil =>
      obtain ⟨a, q, hu⟩ := utf8_cons c.toNat
      rw [encode_cons, hu] at h
      cases h
    | cons d t =>
      have h1 := decodeOne_encode d (encode t)
      rw [← encode_cons, h, encode_cons, List.append_assoc, decodeOne_encode] at h1
      obtain ⟨rfl, h2⟩ := Prod.mk.inj (Option.some.inj h1)
      obtain ⟨u, rfl, rfl⟩ := ih t r h2.symm
      exact ⟨u, rfl, rfl⟩

/-- The first `k` bytes of a text: refused, or the form of a beginning of the text. -/
theorem decode_take (t : Str) (k : Nat) : decode ((encode t).take k) = none ∨ ∃ s u, t = s ++ u ∧ (encode t).take k = encode s ∧ decode ((encode t).take k) = some s := by
  cases h : decode ((encode t).take k) with
  | none => exact .inl rfl
  | some s =>
    have h1 := (C147_decode _ _).1 h
    obtain ⟨u, hu, _⟩ := encode_prefix s t ((encode t).drop k) (by rw [← h1, List.take_append_drop])
    exact .inr ⟨s, u, hu, h1, rfl⟩

/-! ### reading -/

variable {α : Type}

/-- **C147**, reading: a file is read as the text whose UTF-8 form it is, and a file that is not the UTF-8 form of any text is refused with a
`UnicodeDecodeError`, whatever it holds otherwise. -/
theorem C147_read (parse : Option Str → Res α) (b : Bytes) :
    (∀ t, b = encode t → readFile parse (some b) = parse (some (Newlines.universal t))) ∧
    ((∀ t, b ≠ encode t) → readFile parse (some b) = .raise .valueError) := by
  constructor
  · rintro t rfl
    simp only [readFile, (C147_decode _ t).2 rfl]
  · intro h
    cases hd : decode b with
    | none => simp only [readFile, hd]
    | some t => exact absurd ((C147_decode _ _).1 hd) (h t)

/-- **C147**, cut files: a file cut behind any byte is refused, or read as its text cut behind a character. -/
theorem C147_cut (parse : Option Str → Res α) (t : Str) (k : Nat) : readFile parse (some ((encode t).take k)) = .raise .valueError ∨
    ∃ j, (encode t).take k = encode (t.take j) ∧ readFile parse (some ((encode t).take k)) = parse (some (Newlines.universal (t.take j))) := by
  rcases decode_take t k with h | ⟨s, u, rfl, h1, h2⟩
  · exact .inl (by simp only [readFile, h])
  · refine .inr ⟨s.length, ?_⟩
    rw [List.take_left]
    exact ⟨h1, by simp only [readFile, h2]⟩

/-- **C147**, cut files: it is refused exactly if the cut is inside a character. -/
theorem C147_cut_refused (t : Str) (k : Nat) : decode ((encode t).take k) = none ↔
    ∀ j, (encode t).take k ≠ encode (t.take j) := by
  rcases decode_take t k with h | ⟨s, u, rfl, h1, h2⟩
  · rw [h]
    refine ⟨fun _ j hj => ?_, fun _ => rfl⟩
    rw [(C147_decode _ _).2 hj] at h
    cases h
  · refine ⟨fun h => (by rw [h2] at h; cases h), fun h => absurd h1 ?_⟩
    have := h s.length
    rwa [List.take_left] at this

/-! ### ASCII -/

/-- All characters are ASCII. -/
def Ascii (t : Str) : Prop := ∀ c ∈ t, c.toNat < 0x80

theorem encode_ascii {t : Str} (h : Ascii t) : encode t = t.map Char.toNat := by
  induction t with
  | nil => rfl
  | cons c t ih =>
    rw [encode_cons, ih fun c hc => h c (List.mem_cons_of_mem _ hc)]
    have := h c List.mem_cons_self
    simp [utf8, this]

/-- **C147**, ASCII: a file that is all ASCII can be cut behind any byte and is read as the text cut behind as many characters. -/
theorem C147_ascii (parse : Option Str → Res α) (t : Str) (h : Ascii t) (k : Nat) :
    readFile parse (some ((encode t).take k)) = parse (some (Newlines.universal (t.take k))) := by
  have ht : Ascii (t.take k) := fun c hc => h c (List.mem_of_mem_take hc)
  refine (C147_read parse _).1 _ ?_
  rw [encode_ascii h, encode_ascii ht, List.map_take]

/-- **C147**, damage: a single byte beyond ASCII among ASCII characters is always noticed. -/
theorem C147_damage (parse : Option Str → Res α) (s t : Str) (b : Nat) (hs : Ascii s) (ht : Ascii t) (hb : 0x80 ≤ b) :
    readFile parse (some (encode s ++ b :: encode t)) = .raise .valueError := by
  refine (C147_read parse _).2 fun u hu => ?_
  obtain ⟨v, rfl, hv⟩ := encode_prefix s u _ hu.symm
  cases v with
  | nil => cases hv
  | cons c v =>
    have h1 := decodeOne_encode c (encode v)
    rw [← encode_cons, ← hv] at h1
    have hn : ∀ x ∈ encode t, x < 0x80 := by
      rw [encode_ascii ht]
      intro x hx
      obtain ⟨c, hc, rfl⟩ := List.mem_map.1 hx
      exact ht c hc
    have hc : ∀ x ∈ encode t, cont x = false := fun x hx => by
      have := hn x hx
      simp only [cont, Bool.and_eq_false_iff, decide_eq_false_iff_not]
      omega
    generalize encode t = r at h1 hc
    unfold decodeOne at h1
    simp only at h1
    rw [if_neg (by omega)] at h1
    split at h1
    · cases h1
    split at h1
    · split at h1
      · rename_i b' r' 
        rw [hc b' (by simp)] at h1; cases h1
      · cases h1
    split at h1
    · split at h1
      · rename_i b' c' r'
        rw [hc b' (by simp)] at h1; cases h1
      · cases h1
    split at h1
    · split at h1
      · rename_i b' c' d' r'
        rw [hc b' (by simp)] at h1; cases h1
      · cases h1
    · cases h1

/-- **C147**, appending: what is written behind a text is read behind it. -/
theorem C147_append (parse : Option Str → Res α) (s t : Str) : readFile parse (some (encode s ++ encode t)) = parse (some (Newlines.universal (s ++ t))) :=
  (C147_read parse _).1 _ (encode_append s t).symm

/-! ### the classes -/

/-- The classes that read a file as text, with their other arguments. -/
inductive Parser
  | incar (F : FloatEnv) (allowed : List Str) (validateTags : Bool)
  | poscar
  | kpoints
  | doscar (nonCollinear : Bool)
  | eigenval
  | chgcar
  | potcar
  | outcar

/-- What an object of the class holds. -/
def Parser.Data : Parser → Type
  | .incar .. => Incar.Entries
  | .poscar => Poscar.Entries
  | .kpoints => Kpoints.Entries
  | .doscar _ => DoscarFull.Data
  | .eigenval => EigenvalFull.Data
  | .chgcar => ChgcarFull.Data
  | .potcar => Potcar.Data
  | .outcar => Outcar.Data

/-- `Incar(file_path=p)`, `Poscar(file_path=p)`, ... where the file holds the text, or does not exist. -/
def Parser.text : (x : Parser) → Option Str → Res x.Data
  | .incar F allowed v, t => Incar.init F allowed v { path := some t }
  | .poscar, t => Poscar.init { path := some t }
  | .kpoints, t => Kpoints.init { path := some t }
  | .doscar nc, t => DoscarFull.init (some t) none nc
  | .eigenval, t => EigenvalFull.init (some t) none
  | .chgcar, t => ChgcarFull.init (some t) none
  | .potcar, t => Potcar.init (some t) none
  | .outcar, t => Outcar.init (some t) none

/-- The same for a file of bytes. -/
def Parser.read (x : Parser) (file : Option Bytes) : Res x.Data := readFile x.text file

/-- **C147**, all classes: the object depends on the characters of the file alone, and nothing is read of a file that is not text. -/
theorem C147_classes (x : Parser) (b : Bytes) :
    (∀ t, b = encode t → x.read (some b) = x.text (some (Newlines.universal t))) ∧ ((∀ t, b ≠ encode t) → x.read (some b) = .raise .valueError) :=
  C147_read x.text b

/-- **C147**, all classes: a missing file is not an undecodable one, it ends the program with exit code 14. -/
theorem C147_missing (x : Parser) : x.read none = .exit 14 := by cases x <;> rfl

/-- **C147**, killed writing: if all that reached the disk are the first bytes of what INCAR, POSCAR or KPOINTS write, however many, then reading
the file is refused or gives what a beginning of the written text gives, of which C119 says how far it is the written object. -/
theorem C147_killed (x : Parser) (i : Output.Item) (b : Bytes) (h : b <+: encode i.writer.pieces.flatten) :
    x.read (some b) = .raise .valueError ∨
    ∃ t, t <+: i.writer.pieces.flatten ∧ b = encode t ∧ x.read (some b) = x.text (some (Newlines.universal t)) := by
  obtain ⟨r, hr⟩ := h
  have hb : b = (encode i.writer.pieces.flatten).take b.length := by rw [← hr, List.take_left]
  rcases C147_cut x.text i.writer.pieces.flatten b.length with h | ⟨j, h1, h2⟩
  · rw [← hb] at h
    exact .inl h
  · rw [← hb] at h1 h2
    exact .inr ⟨_, List.take_prefix _ _, h1, h2⟩

/-- **C147**, killed writing: if the written text is ASCII, reading is not refused for where the file ends. -/
theorem C147_killed_ascii (x : Parser) (i : Output.Item) (b : Bytes) (ha : Ascii i.writer.pieces.flatten)
    (h : b <+: encode i.writer.pieces.flatten) :
    ∃ t, t <+: i.writer.pieces.flatten ∧ b = encode t ∧ x.read (some b) = x.text (some (Newlines.universal t)) := by
  obtain ⟨r, hr⟩ := h
  have hb : b = encode (i.writer.pieces.flatten.take b.length) := by
    have : b = (encode i.writer.pieces.flatten).take b.length := by rw [← hr, List.take_left]
    rw [encode_ascii fun c hc => ha c (List.mem_of_mem_take hc), List.map_take, ← encode_ascii ha]
    exact this
  exact ⟨_, List.take_prefix _ _, hb, (C147_classes x b).1 _ hb⟩

/-! ### the hypotheses are met -/

/-- A KPOINTS with an accented comment. -/
def accented : Str := c!"Zoné\n0\nGamma\n4 4 4\n"

-- The whole file is read; cut inside the accent it is refused; cut behind the accent it is read as the text cut there, which has no second line.
example : (Parser.kpoints.read (some (encode accented))).isOk = true ∧
    Parser.kpoints.read (some ((encode accented).take 4)) = .raise .valueError ∧
    (Parser.kpoints.read (some ((encode accented).take 5)) = .raise .indexError) :=
  ⟨by decide +kernel, rfl, rfl⟩

-- An INCAR in Latin-1 is refused although only a comment is not ASCII.
example : (Parser.incar exactEnv [] false).read (some (encode c!"NSW = 3 ! Ma" ++ 0xDF :: encode c!"\n")) = .raise .valueError :=
  C147_damage _ _ _ _ (by unfold Ascii; decide) (by unfold Ascii; decide) (by decide)

example : encode c!"NSW = 3 ! Maß\n" = encode c!"NSW = 3 ! Ma" ++ [0xC3, 0x9F] ++ encode c!"\n" := by decide

end Verif.Bytes
