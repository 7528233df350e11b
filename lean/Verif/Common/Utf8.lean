import Verif.Common.Lit
/-!
UTF-8 encoding (`str.encode("utf-8")` of text without surrogates) as lists of byte values, with a decoder.
-/

namespace Py

/-- the UTF-8 bytes of one code point -/
def utf8Code (n : Nat) : List Nat :=
  if n < 0x80 then [n]
  else if n < 0x800 then [0xC0 + n / 64, 0x80 + n % 64]
  else if n < 0x10000 then [0xE0 + n / 4096, 0x80 + n / 64 % 64, 0x80 + n % 64]
  else [0xF0 + n / 262144, 0x80 + n / 4096 % 64, 0x80 + n / 64 % 64, 0x80 + n % 64]

def utf8Char (c : Char) : List Nat := utf8Code c.toNat

/-- `s.encode("utf-8")` -/
def utf8 (s : List Char) : List Nat := s.flatMap utf8Char

/-- code points of well-formed UTF-8 (leading byte decides the length; other bytes are taken as they are) -/
def decodeUtf8 : List Nat → List Nat
  | [] => []
  | a :: r =>
    if a < 0x80 then a :: decodeUtf8 r
    else if a < 0xE0 then
      match r with
      | b :: r => ((a - 0xC0) * 64 + (b - 0x80)) :: decodeUtf8 r
      | _ => []
    else if a < 0xF0 then
      match r with
      | b :: c :: r => ((a - 0xE0) * 4096 + (b - 0x80) * 64 + (c - 0x80)) :: decodeUtf8 r
      | _ => []
    else
      match r with
      | b :: c :: d :: r => ((a - 0xF0) * 262144 + (b - 0x80) * 4096 + (c - 0x80) * 64 + (d - 0x80)) :: decodeUtf8 r
      | _ => []

theorem char_lt (c : Char) : c.toNat < 0x110000 := by
  have := c.valid
  simp only [UInt32.isValidChar, Nat.isValidChar] at this
  have h : c.toNat = c.val.toNat := rfl
  omega

theorem decode_utf8Code (n : Nat) (h : n < 0x110000) (r : List Nat) : decodeUtf8 (utf8Code n ++ r) = n :: decodeUtf8 r := by
  unfold utf8Code
  split
  · rename_i h1
    simp only [List.cons_append, List.nil_append]
    rw [decodeUtf8.eq_def]
    simp [h1]
  · split
    · rename_i h1 h2
      simp only [List.cons_append, List.nil_append]
      rw [decodeUtf8.eq_def]
      simp only
      rw [if_neg (by omega), if_pos (by omega)]
      exact congrArg (· :: decodeUtf8 r) (by omega)
    · split
      · rename_i h1 h2 h3
        simp only [List.cons_append, List.nil_append]
        rw [decodeUtf8.eq_def]
        simp only
        rw [if_neg (by omega), if_neg (by omega), if_pos (by omega)]
        exact congrArg (· :: decodeUtf8 r) (by omega)
      · rename_i h1 h2 h3
        simp only [List.cons_append, List.nil_append]
        rw [decodeUtf8.eq_def]
        simp only
        rw [if_neg (by omega), if_neg (by omega), if_neg (by omega)]
        exact congrArg (· :: decodeUtf8 r) (by omega)

theorem decode_utf8 (s : List Char) : decodeUtf8 (utf8 s) = s.map (·.toNat) := by
  induction s with
  | nil => rw [utf8, List.flatMap_nil]; rw [decodeUtf8.eq_def]; rfl
  | cons c s ih =>
    show decodeUtf8 (utf8Code c.toNat ++ utf8 s) = _
    rw [decode_utf8Code _ (char_lt c), ih]
    rfl

theorem map_toNat_inj : ∀ {s t : List Char}, s.map (·.toNat) = t.map (·.toNat) → s = t
  | [], [], _ => rfl
  | [], _ :: _, h => by simp at h
  | _ :: _, [], h => by simp at h
  | c :: s, d :: t, h => by
    simp only [List.map_cons, List.cons.injEq] at h
    rw [Char.toNat_inj.1 h.1, map_toNat_inj h.2]

theorem utf8_inj {s t : List Char} (h : utf8 s = utf8 t) : s = t := by
  have h1 := congrArg decodeUtf8 h
  rw [decode_utf8, decode_utf8] at h1
  exact map_toNat_inj h1

theorem utf8_byte (s : List Char) : ∀ b ∈ utf8 s, b < 256 := by
  intro b hb
  obtain ⟨c, _, hb⟩ := List.mem_flatMap.1 hb
  have := char_lt c
  unfold utf8Char utf8Code at hb
  split at hb
  · simp at hb; omega
  · split at hb
    · simp at hb; omega
    · split at hb <;> simp at hb <;> omega

end Py
