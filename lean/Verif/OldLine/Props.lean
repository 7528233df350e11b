import Verif.OldLine.Model
import Verif.OldLine.Spec
/-!
C135: the line of a template of an old Django is that in which the node begins.
-/

namespace OldLine

open Spec

theorem go_zero (rest : Str) (n : Int) : go rest 0 n = some n := by unfold go; rfl

theorem go_plain (b rest : Str) (hb : Plain b) (k : Nat) (n : Int) : go (b ++ rest) (b.length + k) n = go rest k n := by
  induction b with
  | nil => simp
  | cons c b ih =>
    obtain ⟨h1, h2⟩ := hb
    simp only [List.mem_cons, not_or] at h1 h2
    rw [show (c :: b).length + k = (b.length + k) + 1 by simp; omega, List.cons_append, go.eq_def]
    simp only
    rw [if_neg (fun h => h1.1 h.symm), if_neg (fun h => h2.1 h.symm)]
    exact ih ⟨h1.2, h2.2⟩

theorem go_inside (b rest : Str) (hb : Plain b) (k : Nat) (hk : k ≤ b.length) (n : Int) : go (b ++ rest) k n = some n := by
  have h : Plain (b.take k) := ⟨fun h => hb.1 (List.mem_of_mem_take h), fun h => hb.2 (List.mem_of_mem_take h)⟩
  have := go_plain (b.take k) (b.drop k ++ rest) h 0 n
  rw [← List.append_assoc, List.take_append_drop, List.length_take, Nat.min_eq_left hk, Nat.add_zero, go_zero] at this
  exact this

theorem go_lf (rest : Str) (k : Nat) (n : Int) : go ('\n' :: rest) (k + 1) n = go rest k (n + 1) := by
  rw [go.eq_def]; simp

theorem go_crlf (rest : Str) (k : Nat) (n : Int) : go ('\r' :: '\n' :: rest) (k + 2) n = go rest k (n + 1) := by
  rw [go.eq_def]; simp

theorem go_cr (rest : Str) (hr : rest.head? ≠ some '\n') (hne : rest ≠ []) (k : Nat) (n : Int) :
    go ('\r' :: rest) (k + 1) n = go rest k (n + 1) := by
  rw [go.eq_def]
  cases rest with
  | nil => exact absurd rfl hne
  | cons d r =>
    have hd : d ≠ '\n' := by simpa using hr
    simp [hd]

theorem lines_ne {text : Str} {ls : List Str} (h : Lines text ls) : ls ≠ [] := by
  cases h <;> simp

/-- a line is passed -/
theorem go_line {text : Str} {l : Str} {ls : List Str} (h : Lines text (l :: ls)) (hls : ls ≠ []) (hend : text.getLast? ≠ some '\r') :
    ∃ rest, Lines rest ls ∧ text = l ++ rest ∧ ∀ k n, go text (l.length + k) n = go rest k (n + 1) := by
  cases h with
  | last _ => exact absurd rfl hls
  | @lf b rest _ hb hr =>
    refine ⟨rest, hr, by simp, fun k n => ?_⟩
    rw [List.append_assoc, List.length_append, Nat.add_assoc, go_plain _ _ hb, List.length_singleton, Nat.add_comm 1 k]
    exact go_lf rest k n
  | @crlf b rest _ hb hr =>
    refine ⟨rest, hr, by simp, fun k n => ?_⟩
    rw [List.append_assoc, List.length_append, Nat.add_assoc, go_plain _ _ hb, show ['\r', '\n'].length + k = k + 2 by simp; omega]
    exact go_crlf rest k n
  | @cr b rest _ hb hh hr =>
    refine ⟨rest, hr, by simp, fun k n => ?_⟩
    have hne : rest ≠ [] := by
      intro e
      subst e
      simp at hend
    rw [List.append_assoc, List.length_append, Nat.add_assoc, go_plain _ _ hb, List.length_singleton, Nat.add_comm 1 k]
    exact go_cr rest hh hne k n

theorem go_in {before : List Str} {text : Str} {ls : List Str} {line : Str} {k : Nat} (h : Lines text ls) (hend : text.getLast? ≠ some '\r')
    (hin : In ls before line k) (hk : ['\r', '\n'] <:+ line → k + 1 ≠ line.length) (n : Int) :
    go text (before.flatten.length + k) n = some (n + before.length) := by
  induction before generalizing text ls n with
  | nil =>
    obtain ⟨after, rfl, hlt⟩ := hin
    simp only [List.flatten_nil, List.length_nil, Nat.zero_add, List.nil_append] at *
    rw [show n + ((0 : Nat) : Int) = n by simp]
    cases h with
    | last hb =>
      have := go_inside line [] hb k (by rcases hlt with h | h <;> omega) n
      rwa [List.append_nil] at this
    | @lf b rest _ hb hr =>
      rw [List.append_assoc]
      refine go_inside b _ hb k ?_ n
      rcases hlt with h | ⟨h, _⟩
      · simp at h; omega
      · exact absurd h (lines_ne hr)
    | @crlf b rest _ hb hr =>
      rw [List.append_assoc]
      refine go_inside b _ hb k ?_ n
      have := hk ⟨b, rfl⟩
      rcases hlt with h | ⟨h, _⟩
      · simp at h this; omega
      · exact absurd h (lines_ne hr)
    | @cr b rest _ hb hh hr =>
      rw [List.append_assoc]
      refine go_inside b _ hb k ?_ n
      rcases hlt with h | ⟨h, _⟩
      · simp at h; omega
      · exact absurd h (lines_ne hr)
  | cons l bs ih =>
    obtain ⟨after, rfl, hlt⟩ := hin
    obtain ⟨rest, hr, htext, hgo⟩ := go_line h (by simp) hend
    rw [List.flatten_cons, List.length_append, Nat.add_assoc, hgo]
    have hend' : rest.getLast? ≠ some '\r' := by
      intro e
      apply hend
      rw [htext, List.getLast?_append, e]; rfl
    rw [ih hr hend' ⟨after, rfl, hlt⟩ (n + 1)]
    simp only [List.length_cons]
    congr 1
    omega

/-- C135. The line at which an old Django is said to be is the line in which the node begins: as many lines are before it as the number says, less
one, whatever ends the lines. -/
theorem c135_line {text : Str} {ls before : List Str} {line : Str} {k : Nat} (h : Lines text ls) (hend : text.getLast? ≠ some '\r')
    (hin : In ls before line k) (hk : ['\r', '\n'] <:+ line → k + 1 ≠ line.length) :
    templateLine (some (before.flatten.length + k)) (some (some text)) = some ((before.length : Int) + 1) := by
  show go text _ 1 = _
  rw [go_in h hend hin hk, Int.add_comm]

theorem lines_flatten {text : Str} {ls : List Str} (h : Lines text ls) : ls.flatten = text := by
  induction h with
  | last _ => simp
  | lf _ _ ih => simp [ih]
  | crlf _ _ ih => simp [ih]
  | cr _ _ _ ih => simp [ih]

/-- every text has lines -/
theorem lines_exist (text : Str) : ∃ ls, Lines text ls := by
  suffices ∀ n (text : Str), text.length ≤ n → ∀ b, Plain b → ∃ ls, Lines (b ++ text) ls from
    by simpa using this _ text (Nat.le_refl _) [] ⟨by simp, by simp⟩
  intro n
  induction n with
  | zero =>
    intro text ht b hb
    have : text = [] := List.eq_nil_of_length_eq_zero (by omega)
    subst this
    exact ⟨[b], by simpa using Lines.last hb⟩
  | succ n ih =>
    intro text ht b hb
    have hnil : Plain [] := ⟨by simp, by simp⟩
    cases text with
    | nil => exact ⟨[b], by simpa using Lines.last hb⟩
    | cons c r =>
      simp only [List.length_cons] at ht
      by_cases h1 : c = '\n'
      · subst h1
        obtain ⟨ls, hl⟩ := ih r (by omega) [] hnil
        exact ⟨_, by simpa using Lines.lf hb hl⟩
      · by_cases h2 : c = '\r'
        · subst h2
          by_cases h3 : r.head? = some '\n'
          · cases r with
            | nil => simp at h3
            | cons d r =>
              simp only [List.head?_cons, Option.some.injEq] at h3
              subst h3
              simp only [List.length_cons] at ht
              obtain ⟨ls, hl⟩ := ih r (by omega) [] hnil
              exact ⟨_, by simpa using Lines.crlf hb hl⟩
          · obtain ⟨ls, hl⟩ := ih r (by omega) [] hnil
            exact ⟨_, by simpa using Lines.cr hb h3 hl⟩
        · have hb' : Plain (b ++ [c]) := by
            refine ⟨?_, ?_⟩
            · simpa [not_or] using ⟨hb.1, fun h => h1 h.symm⟩
            · simpa [not_or] using ⟨hb.2, fun h => h2 h.symm⟩
          obtain ⟨ls, hl⟩ := ih r (by omega) (b ++ [c]) hb'
          exact ⟨ls, by simpa using hl⟩

/-- C135. Past the end of the text there is no line. -/
theorem c135_past (text : Str) (k : Nat) (hend : text.getLast? ≠ some '\r') (hk : text.length < k) : offsetToLine text k = some (-1) := by
  obtain ⟨ls, h⟩ := lines_exist text
  suffices ∀ n, go text k n = some (-1) from this 1
  intro n
  induction ls generalizing text k n with
  | nil => exact absurd rfl (lines_ne h)
  | cons l ls ih =>
    by_cases hls : ls = []
    · subst hls
      cases h with
      | last hb =>
        have := go_plain l [] hb (k - l.length) n
        rw [List.append_nil, show l.length + (k - l.length) = k by omega] at this
        rw [this, show k - l.length = (k - l.length - 1) + 1 by omega, go.eq_def]
      | lf _ hr => exact absurd rfl (lines_ne hr)
      | crlf _ hr => exact absurd rfl (lines_ne hr)
      | cr _ _ hr => exact absurd rfl (lines_ne hr)
    · obtain ⟨rest, hr, htext, hgo⟩ := go_line h hls hend
      have hend' : rest.getLast? ≠ some '\r' := by
        intro e
        apply hend
        rw [htext, List.getLast?_append, e]; rfl
      have hl : text.length = l.length + rest.length := by rw [htext, List.length_append]
      rw [show k = l.length + (k - l.length) by omega, hgo]
      exact ih rest (k - l.length) hend' (by omega) hr _

/-- What is not so: a text that ends in the middle of a line end, and an offset between the two characters of one. -/
theorem c135_witness : offsetToLine c!"a\r" 2 = none ∧ offsetToLine c!"a\r\nb" 2 = some 2 := by constructor <;> decide +kernel

/-- A text with all kinds of line ends. -/
theorem c135_example : offsetToLine c!"a\nb\r\n\rcd" 7 = some 4 ∧
    Lines c!"a\nb\r\n\rcd" [c!"a\n", c!"b\r\n", c!"\r", c!"cd"] ∧ In [c!"a\n", c!"b\r\n", c!"\r", c!"cd"] [c!"a\n", c!"b\r\n", c!"\r"] c!"cd" 1 := by
  refine ⟨by decide +kernel, ?_, ?_⟩
  · have h4 : Lines c!"cd" [c!"cd"] := .last ⟨by decide, by decide⟩
    have h3 : Lines c!"\rcd" [c!"\r", c!"cd"] := .cr (b := []) ⟨by decide, by decide⟩ (by decide) h4
    have h2 : Lines c!"b\r\n\rcd" [c!"b\r\n", c!"\r", c!"cd"] := .crlf (b := c!"b") ⟨by decide, by decide⟩ h3
    exact .lf (b := c!"a") ⟨by decide, by decide⟩ h2
  · exact ⟨[], rfl, Or.inl (by decide)⟩

end OldLine
