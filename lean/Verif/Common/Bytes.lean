import Verif.Common.PyInt
/-! Byte strings and their relation to ASCII text. -/

abbrev Bytes := List UInt8

namespace Py

/-- View a byte string as characters, one per byte (exact for ASCII; used only where the code
looks at ASCII content: `int(b"..")`, `line.strip()`). -/
def asChars (b : Bytes) : List Char := b.map (fun x => Char.ofNat x.toNat)

/-- ASCII encoding of text (`s.encode("ascii")`). -/
def asciiBytes (s : List Char) : Bytes := s.map (fun c => UInt8.ofNat c.toNat)

theorem asChars_asciiBytes {s : List Char} (h : ∀ c ∈ s, c.toNat < 128) :
    asChars (asciiBytes s) = s := by
  unfold asChars asciiBytes
  rw [List.map_map]
  conv => rhs; rw [← List.map_id s]
  apply List.map_congr_left
  intro c hc
  have := h c hc
  simp only [Function.comp, id]
  rw [UInt8.toNat_ofNat_of_lt' (by simp [UInt8.size]; omega)]
  exact Char.ofNat_toNat c

theorem intStr_ascii (i : Int) : ∀ c ∈ intStr i, c.toNat < 128 := by
  have hd : ∀ n, ∀ c ∈ natStr n, c.toNat < 128 := by
    intro n c hc
    have := natStr_digits n c hc
    have h9 : '9'.toNat = 57 := rfl
    simp only [isDigit, Bool.and_eq_true, decide_eq_true_eq, h9] at this
    omega
  intro c hc
  cases i with
  | ofNat n => exact hd n c hc
  | negSucc n =>
    simp only [intStr, List.mem_cons] at hc
    rcases hc with rfl | hc
    · decide
    · exact hd _ c hc

/-- Strict UTF-8 validity of a byte string (`b.decode("utf-8")` does not raise): no overlong
forms, no surrogates, nothing above U+10FFFF. -/
def utf8Valid : Bytes → Bool
  | [] => true
  | a :: r =>
    if a < 0x80 then utf8Valid r
    else if a < 0xC2 then false
    else if a < 0xE0 then
      match r with
      | b :: r' => (0x80 ≤ b && b < 0xC0) && utf8Valid r'
      | [] => false
    else if a < 0xF0 then
      match r with
      | b :: c :: r' =>
        (0x80 ≤ b && b < 0xC0) && (0x80 ≤ c && c < 0xC0) &&
        !(a = 0xE0 && b < 0xA0) && !(a = 0xED && 0xA0 ≤ b) && utf8Valid r'
      | _ => false
    else if a < 0xF5 then
      match r with
      | b :: c :: d :: r' =>
        (0x80 ≤ b && b < 0xC0) && (0x80 ≤ c && c < 0xC0) && (0x80 ≤ d && d < 0xC0) &&
        !(a = 0xF0 && b < 0x90) && !(a = 0xF4 && 0x90 ≤ b) && utf8Valid r'
      | _ => false
    else false

theorem utf8Valid_ascii {b : Bytes} (h : ∀ x ∈ b, x < 0x80) : utf8Valid b = true := by
  induction b with
  | nil => rfl
  | cons a r ih =>
    unfold utf8Valid
    rw [if_pos (h a (by simp))]
    exact ih (fun x hx => h x (by simp [hx]))

end Py
