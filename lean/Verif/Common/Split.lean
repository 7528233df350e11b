/-! `str.split(sep)` and `sep.join(..)` for a one-character separator. -/

namespace Py

/-- `s.split(sep)` -/
def split1 (sep : Char) : List Char → List (List Char)
  | [] => [[]]
  | c :: cs =>
    if c = sep then [] :: split1 sep cs
    else
      match split1 sep cs with
      | [] => [[c]]
      | w :: ws => (c :: w) :: ws

/-- `sep.join(ws)` -/
def join1 (sep : Char) : List (List Char) → List Char
  | [] => []
  | [w] => w
  | w :: w' :: ws => w ++ sep :: join1 sep (w' :: ws)

theorem split1_ne_nil (sep : Char) (s : List Char) : split1 sep s ≠ [] := by
  cases s with
  | nil => simp [split1]
  | cons c cs =>
    rw [split1]
    split
    · simp
    · split <;> simp

theorem split1_of_not_mem (sep : Char) (s : List Char) (h : sep ∉ s) : split1 sep s = [s] := by
  induction s with
  | nil => rfl
  | cons c cs ih =>
    simp only [List.mem_cons, not_or] at h
    rw [split1, if_neg (Ne.symm h.1), ih h.2]

theorem split1_append (sep : Char) (w s : List Char) (h : sep ∉ w) :
    split1 sep (w ++ sep :: s) = w :: split1 sep s := by
  induction w with
  | nil => simp [split1]
  | cons c cs ih =>
    simp only [List.mem_cons, not_or] at h
    rw [List.cons_append, split1, if_neg (Ne.symm h.1), ih h.2]

theorem split1_join1 (sep : Char) (ws : List (List Char)) (hne : ws ≠ []) (h : ∀ w ∈ ws, sep ∉ w) :
    split1 sep (join1 sep ws) = ws := by
  induction ws with
  | nil => exact absurd rfl hne
  | cons w ws ih =>
    cases ws with
    | nil => exact split1_of_not_mem sep w (h w (by simp))
    | cons w' ws' =>
      rw [join1, split1_append sep w _ (h w (by simp)), ih (by simp) (fun x hx => h x (by simp [hx]))]

theorem join1_split1 (sep : Char) (s : List Char) : join1 sep (split1 sep s) = s := by
  induction s with
  | nil => rfl
  | cons c cs ih =>
    rw [split1]
    split
    · rename_i h
      cases hs : split1 sep cs with
      | nil => exact absurd hs (split1_ne_nil sep cs)
      | cons w ws => rw [hs] at ih; rw [join1, ih, h]; rfl
    · cases hs : split1 sep cs with
      | nil => exact absurd hs (split1_ne_nil sep cs)
      | cons w ws =>
        rw [hs] at ih
        cases ws with
        | nil => simp only [join1] at ih ⊢; rw [ih]
        | cons w' ws' => simp only [join1] at ih ⊢; rw [List.cons_append, ih]

theorem split1_no_sep (sep : Char) (s : List Char) : ∀ w ∈ split1 sep s, sep ∉ w := by
  induction s with
  | nil => simp [split1]
  | cons c cs ih =>
    rw [split1]
    split
    · intro w hw
      simp only [List.mem_cons] at hw
      rcases hw with rfl | hw
      · simp
      · exact ih w hw
    · rename_i hc
      split
      · rename_i hs; exact absurd hs (split1_ne_nil sep cs)
      · rename_i w ws hs
        rw [hs] at ih
        intro x hx
        simp only [List.mem_cons] at hx
        rcases hx with rfl | hx
        · have := ih w (by simp)
          simp only [List.mem_cons, not_or]
          exact ⟨Ne.symm hc, this⟩
        · exact ih x (by simp [hx])

theorem split1_append_sep (sep : Char) (a b : List Char) : split1 sep (a ++ sep :: b) = split1 sep a ++ split1 sep b := by
  induction a with
  | nil => simp [split1]
  | cons c cs ih =>
    rw [List.cons_append, split1, split1]
    split
    · rw [ih]; rfl
    · rw [ih]
      cases hs : split1 sep cs with
      | nil => exact absurd hs (split1_ne_nil sep cs)
      | cons w ws => rfl

theorem join1_cons (sep : Char) (w : List Char) (ws : List (List Char)) (h : ws ≠ []) :
    join1 sep (w :: ws) = w ++ sep :: join1 sep ws := by
  cases ws with
  | nil => exact absurd rfl h
  | cons _ _ => rfl

theorem join1_append (sep : Char) (a b : List (List Char)) (ha : a ≠ []) (hb : b ≠ []) :
    join1 sep (a ++ b) = join1 sep a ++ sep :: join1 sep b := by
  induction a with
  | nil => exact absurd rfl ha
  | cons w ws ih =>
    cases ws with
    | nil => rw [List.cons_append, List.nil_append, join1_cons sep w b hb]; rfl
    | cons w' ws' =>
      rw [List.cons_append, join1_cons sep w _ (by simp), ih (by simp), join1_cons sep w _ (by simp)]
      simp [List.append_assoc]

/-- `m == n or m.startswith(n + sep)` says that the parts of `n` are the first parts of `m`. -/
theorem split1_prefix_iff (sep : Char) (n m : List Char) :
    (n = m ∨ n ++ [sep] <+: m) ↔ split1 sep n <+: split1 sep m := by
  constructor
  · rintro (rfl | ⟨t, rfl⟩)
    · exact List.prefix_refl _
    · rw [List.append_assoc]
      show _ <+: split1 sep (n ++ sep :: t)
      rw [split1_append_sep]
      exact List.prefix_append _ _
  · rintro ⟨t, ht⟩
    have hm := join1_split1 sep m
    rw [← ht] at hm
    cases t with
    | nil => left; rw [List.append_nil, join1_split1] at hm; exact hm
    | cons w ws =>
      right
      rw [join1_append sep _ _ (split1_ne_nil sep n) (by simp), join1_split1] at hm
      exact ⟨join1 sep (w :: ws), by rw [← hm]; simp⟩

/-- `str.replace(a, b)` for single characters -/
def replaceChar (a b : Char) (s : List Char) : List Char := s.map (fun c => if c = a then b else c)

end Py
