import Verif.FutureEnd.Model
import Verif.FutureEnd.Spec
/-!
C138: the code of the debugger is put right behind the last import from `__future__`.
-/

namespace FutureEnd

open Spec
open OldLine.Spec (Lines Plain)

theorem bytes_simple {p : Str} (h : Simple p) : bytes p = p.length := by
  induction p with
  | nil => rfl
  | cons c p ih =>
    have hc := (h c (by simp)).1
    have : c.utf8Size = 1 := by
      unfold Char.utf8Size
      have h1 : c.val.toNat < 128 := hc
      have h2 : c.val ≤ 127 := by
        rw [UInt32.le_iff_toNat_le]
        show c.val.toNat ≤ 127
        omega
      exact if_pos h2
    have ih := ih (fun x hx => h x (by simp [hx]))
    unfold bytes at ih ⊢
    rw [List.map_cons, List.sum_cons, this, ih, List.length_cons]
    omega

theorem isEnd_simple {c : Char} (h1 : c.toNat < 128) (h2 : c.toNat ∉ [11, 12, 28, 29, 30]) (h3 : c ≠ '\n') : isEnd c = false := by
  unfold isEnd
  simp only [Bool.or_eq_false_iff, decide_eq_false_iff_not]
  refine ⟨⟨⟨⟨⟨⟨⟨⟨h3, ?_⟩, ?_⟩, ?_⟩, ?_⟩, ?_⟩, ?_⟩, ?_⟩, ?_⟩ <;> rintro rfl <;> first | exact h2 (by decide) | exact absurd h1 (by decide)

theorem split_plain (b rest acc : Str) (hb : Plain b) (hs : Simple b) : splitLines acc (b ++ rest) = splitLines (b.reverse ++ acc) rest := by
  induction b generalizing acc with
  | nil => rfl
  | cons c b ih =>
    obtain ⟨h1, h2⟩ := hb
    simp only [List.mem_cons, not_or] at h1 h2
    obtain ⟨s1, s2⟩ := hs c (by simp)
    rw [List.cons_append, splitLines.eq_def]
    simp only
    rw [if_neg (fun h => h2.1 h.symm), if_neg (by rw [isEnd_simple s1 s2 (fun h => h1.1 h.symm)]; simp), ih _ ⟨h1.2, h2.2⟩ (fun x hx => hs x (by simp [hx]))]
    simp

theorem loop_end {code : Str} {all ls : List Str} {line : Str} {after : List Str} (h : Lines code all) (hall : all = ls ++ line :: after) (hne : line ≠ [])
    (hs : Simple code) (col i offset : Nat) :
    offsetLoop (i + ls.length) col i offset (splitLines [] code) = some (offset + ls.flatten.length + col) := by
  induction h generalizing ls i offset with
  | @last b hb =>
    cases ls with
    | nil =>
      simp only [List.nil_append, List.cons.injEq] at hall
      obtain ⟨rfl, _⟩ := hall
      have := split_plain b [] [] hb hs
      rw [List.append_nil, List.append_nil] at this
      rw [this, splitLines.eq_def]
      simp [hne, offsetLoop]
    | cons l ls => simp at hall
  | @lf b rest ls' hb hr ih =>
    have hsb : Simple b := fun x hx => hs x (by simp [hx])
    have hsr : Simple rest := fun x hx => hs x (by simp [hx])
    have e : splitLines [] (b ++ ['\n'] ++ rest) = (b ++ ['\n']) :: splitLines [] rest := by
      rw [List.append_assoc, split_plain b _ [] hb hsb, splitLines.eq_def]
      simp [isEnd]
    rw [e, offsetLoop]
    cases ls with
    | nil => simp
    | cons l ls =>
      simp only [List.cons_append, List.cons.injEq] at hall
      obtain ⟨rfl, hall⟩ := hall
      rw [if_neg (by simp), show i + ((b ++ ['\n']) :: ls).length = (i + 1) + ls.length by simp; omega, ih hall hsr]
      simp; omega
  | @crlf b rest ls' hb hr ih =>
    have hsb : Simple b := fun x hx => hs x (by simp [hx])
    have hsr : Simple rest := fun x hx => hs x (by simp [hx])
    have e : splitLines [] (b ++ ['\r', '\n'] ++ rest) = (b ++ ['\r', '\n']) :: splitLines [] rest := by
      rw [List.append_assoc, split_plain b _ [] hb hsb, splitLines.eq_def]
      simp
    rw [e, offsetLoop]
    cases ls with
    | nil => simp
    | cons l ls =>
      simp only [List.cons_append, List.cons.injEq] at hall
      obtain ⟨rfl, hall⟩ := hall
      rw [if_neg (by simp), show i + ((b ++ ['\r', '\n']) :: ls).length = (i + 1) + ls.length by simp; omega, ih hall hsr]
      simp; omega
  | @cr b rest ls' hb hh hr ih =>
    have hsb : Simple b := fun x hx => hs x (by simp [hx])
    have hsr : Simple rest := fun x hx => hs x (by simp [hx])
    have e : splitLines [] (b ++ ['\r'] ++ rest) = (b ++ ['\r']) :: splitLines [] rest := by
      rw [List.append_assoc, split_plain b _ [] hb hsb, splitLines.eq_def]
      cases rest with
      | nil => simp [splitLines]
      | cons d r =>
        have hd : d ≠ '\n' := by simpa using hh
        simp [hd]
    rw [e, offsetLoop]
    cases ls with
    | nil => simp
    | cons l ls =>
      simp only [List.cons_append, List.cons.injEq] at hall
      obtain ⟨rfl, hall⟩ := hall
      rw [if_neg (by simp), show i + ((b ++ ['\r']) :: ls).length = (i + 1) + ls.length by simp; omega, ih hall hsr]
      simp; omega

theorem lines_flatten {text : Str} {ls : List Str} (h : Lines text ls) : ls.flatten = text := by
  induction h with
  | last _ => simp
  | lf _ _ ih => simp [ih]
  | crlf _ _ ih => simp [ih]
  | cr _ _ _ ih => simp [ih]

/-- C138. The code is divided exactly where the parser says that the last import ends. -/
theorem c138_end (parser : Str → Option (Nat × Nat)) (code before : Str) (line col : Nat) (hp : parser code = some (line, col))
    (h : EndOf code before line col) (hs : Simple code) :
    futureEnd parser code = some before.length ∧ before <+: code := by
  obtain ⟨ls, p, rest, after, hl, hne, rfl, rfl, rfl⟩ := h
  have hflat := lines_flatten hl
  have hsp : Simple p := fun x hx => hs x (by rw [← hflat]; simp [hx])
  refine ⟨?_, ?_⟩
  · unfold futureEnd offsetFrom
    rw [hp, Option.bind_some]
    have := loop_end hl rfl (by simp [hne]) hs (bytes p) 0 0
    simp only [Nat.zero_add, Nat.add_sub_cancel] at this ⊢
    rw [this, bytes_simple hsp, List.length_append]
  · rw [← hflat, List.flatten_append, List.flatten_cons, List.append_assoc p, ← List.append_assoc ls.flatten]
    exact List.prefix_append _ _

/-- the newlines at the end of a text -/
theorem trailing (w : Str) : ∃ a, w = a ++ List.replicate (w.reverse.takeWhile (· == '\n')).length '\n' ∧ a.getLast? ≠ some '\n' := by
  refine ⟨(w.reverse.dropWhile (· == '\n')).reverse, ?_, ?_⟩
  · have h := List.takeWhile_append_dropWhile (p := (· == '\n')) (l := w.reverse)
    have h2 : w.reverse.takeWhile (· == '\n') = List.replicate (w.reverse.takeWhile (· == '\n')).length '\n' := by
      apply List.eq_replicate_of_mem
      intro c hc
      have := List.all_eq_true.mp (List.all_takeWhile (p := (· == '\n')) (l := w.reverse)) c hc
      simpa using this
    have h3 := congrArg List.reverse h
    rw [List.reverse_append, List.reverse_reverse] at h3
    conv => lhs; rw [← h3]
    congr 1
    conv => lhs; rw [h2]
    rw [List.reverse_replicate]
  · rw [List.getLast?_reverse]
    intro h
    have := List.head?_dropWhile_not (· == '\n') w.reverse
    rw [h] at this
    simp at this

/-- C138. So the code of the debugger comes behind it, and only what separates statements comes between them; the rest of the code follows. -/
theorem c138_put (parser : Str → Option (Nat × Nat)) (code before : Str) (line col : Nat) (hp : parser code = some (line, col))
    (h : EndOf code before line col) (hs : Simple code) (hn : before.getLast? ≠ some '\n') :
    ∃ between rest, code = before ++ between ++ rest ∧ (∀ c ∈ between, c ∈ [' ', '\t', ';', ')', '\n']) ∧
      PatchArgs.separateFuture (futureEnd parser) code =
        (if Py.endsWith (before ++ between) [';'] then before ++ between else before ++ between ++ [';'], rest) := by
  obtain ⟨ho, r0, hr0⟩ := c138_end parser code before line col hp h hs
  have hbne : before ≠ [] := by
    obtain ⟨ls, p, rest, after, _, hne, rfl, _, _⟩ := h
    simp [hne]
  have hd : code.drop before.length = r0 := by rw [← hr0, List.drop_left]
  obtain ⟨w, hw⟩ : ∃ w, r0.takeWhile PatchArgs.skipped = w := ⟨_, rfl⟩
  obtain ⟨r, hr⟩ : ∃ r, r0.dropWhile PatchArgs.skipped = r := ⟨_, rfl⟩
  have hwr : r0 = w ++ r := by rw [← hw, ← hr, List.takeWhile_append_dropWhile]
  have hwm : ∀ c ∈ w, c ∈ [' ', '\t', ';', ')', '\n'] := by
    intro c hc
    rw [← hw] at hc
    have := List.all_eq_true.mp (List.all_takeWhile (p := PatchArgs.skipped) (l := r0)) c hc
    simpa [PatchArgs.skipped, or_assoc] using this
  obtain ⟨a, ha, _⟩ := trailing w
  have hk : ((before ++ w).reverse.takeWhile (· == '\n')).length = (w.reverse.takeWhile (· == '\n')).length := by
    have hb : before.reverse.takeWhile (· == '\n') = [] := by
      rw [← List.head?_reverse] at hn
      cases hq : before.reverse with
      | nil => rfl
      | cons c q =>
        rw [hq] at hn
        have : (c == '\n') = false := by simpa using hn
        rw [List.takeWhile_cons, this]; rfl
    rw [List.reverse_append, List.takeWhile_append]
    split
    · rename_i e
      rw [hb, List.append_nil, e]
    · rfl
  generalize hkk : (w.reverse.takeWhile (· == '\n')).length = k at hk ha
  refine ⟨a, List.replicate k '\n' ++ r, ?_, ?_, ?_⟩
  · rw [← hr0, hwr, ha]; simp
  · intro c hc
    exact hwm c (by rw [ha]; simp [hc])
  · have hcode : code = (before ++ w) ++ r := by rw [← hr0, hwr, List.append_assoc]
    have htake : code.take (before.length + w.length) = before ++ w := by rw [hcode, ← List.length_append, List.take_left]
    have hdrop : code.drop (before.length + w.length) = r := by rw [hcode, ← List.length_append, List.drop_left]
    have himp : (before ++ w).take ((before ++ w).length - k) = before ++ a := by
      have hl : (before ++ w).length - k = (before ++ a).length := by
        rw [ha]; simp; omega
      rw [hl]
      conv => lhs; rw [ha, ← List.append_assoc]
      rw [List.take_left]
    unfold PatchArgs.separateFuture
    rw [ho]
    simp only [hd, hw, htake, hdrop, hk, himp]

/-! ### Cases, and what is wrong -/

def code1 : Str := c!"'doc'\nfrom __future__ import (a,\r\n b); x = 1"

/-- An import over two lines. -/
theorem c138_example : EndOf code1 c!"'doc'\nfrom __future__ import (a,\r\n b)" 3 3 ∧ Simple code1 ∧
    PatchArgs.separateFuture (futureEnd fun _ => some (3, 3)) code1 = (c!"'doc'\nfrom __future__ import (a,\r\n b); ;", c!"x = 1") := by
  refine ⟨⟨[c!"'doc'\n", c!"from __future__ import (a,\r\n"], c!" b)", c!"; x = 1", [], ?_, by decide, by decide, by decide, by decide⟩, ?_, by decide +kernel⟩
  · have h3 : Lines c!" b); x = 1" [c!" b); x = 1"] := .last ⟨by decide, by decide⟩
    have h2 : Lines c!"from __future__ import (a,\r\n b); x = 1" [c!"from __future__ import (a,\r\n", c!" b); x = 1"] :=
      .crlf (b := c!"from __future__ import (a,") ⟨by decide, by decide⟩ h3
    exact .lf (b := c!"'doc'") ⟨by decide, by decide⟩ h2
  · unfold Simple; decide +kernel

/-- Characters of two bytes before the import in its line: the code is divided too late, inside the next statement. -/
theorem c138_bytes_witness :
    PatchArgs.separateFuture (futureEnd fun _ => some (1, bytes c!"'ééé'; from __future__ import a")) (c!"'ééé'; from __future__ import a;xyz()") =
      (c!"'ééé'; from __future__ import a;xy;", c!"z()") := by decide +kernel

/-- A form feed in a line before: `splitlines` ends a line there and the parser does not. -/
theorem c138_formfeed_witness :
    offsetFrom c!"#\x0c\nfrom __future__ import a\nx" 1 24 = some 26 ∧ (c!"#\x0c\nfrom __future__ import a").length = 27 := by decide +kernel

/-- A line of blanks after the import: the semicolon comes after the blanks, on a line of its own. -/
theorem c138_blank_witness :
    PatchArgs.separateFuture (futureEnd fun _ => some (1, 24)) c!"from __future__ import a\n  \nx" = (c!"from __future__ import a\n  ;", c!"\nx") := by
  decide +kernel

end FutureEnd
