import Verif.Complete.Model
/-!
C85: completions in the debug console fit the text before the cursor.
-/

namespace Complete

/-! ### Specification -/

/-- A character of a dotted name. -/
def nameChar (w : World) (c : Char) : Bool := c = '.' || c = '_' || c.isAlphanum || w.isIdent c

/-- The text ends in a name (letters as the language sees them) made of name characters only, and what comes
before it does not. -/
structure EndsInName (w : World) (before pre run : Str) : Prop where
  split : before = pre ++ run
  all : ∀ c ∈ run, nameChar w c = true
  maximal : ∀ c, pre.getLast? = some c → nameChar w c = false

/-- What a client does with a completion: replace the range of the line by the label. -/
def apply (text : Str) (i : Item) : Str :=
  text.take i.start.toNat ++ i.label ++ text.drop (i.start.toNat + i.length)

/-- The request: the 1-based cursor is in the line, at most behind its last character. -/
structure At (lines : List Str) (line : Option Int) (column : Int) (text before : Str) : Prop where
  onLine : lines[((line.getD 1) - 1).toNat]? = some text
  linePos : 1 ≤ line.getD 1
  col : 1 ≤ column
  inside : column - 1 ≤ text.length
  before : before = text.take (column - 1).toNat

/-! ### Lemmas -/

theorem part_eq (w : World) : part w = nameChar w := by
  funext c
  simp only [part, identifierPart, nameChar, Char.isAlphanum]
  cases c.isAlpha <;> cases c.isDigit <;> cases w.isIdent c <;> simp [Bool.or_comm]

theorem takeWhile_rev (p : Char → Bool) (s : Str) :
    ∃ pre, s = pre ++ (s.reverse.takeWhile p).reverse ∧ (∀ c ∈ (s.reverse.takeWhile p).reverse, p c = true) ∧
      ∀ c, pre.getLast? = some c → p c = false := by
  refine ⟨(s.reverse.dropWhile p).reverse, ?_, ?_, ?_⟩
  · have := List.takeWhile_append_dropWhile (p := p) (l := s.reverse)
    rw [← List.reverse_append, this, List.reverse_reverse]
  · intro c hc
    rw [List.mem_reverse] at hc
    exact List.all_takeWhile (p := p) (l := s.reverse) |> fun h => by
      rw [List.all_eq_true] at h; exact h c hc
  · intro c hc
    rw [List.getLast?_reverse] at hc
    have := List.head?_dropWhile_not p s.reverse
    rw [hc] at this
    simpa using this

/-- A maximal run is unique. -/
theorem run_unique (w : World) (before p1 r1 p2 r2 : Str) (h1 : EndsInName w before p1 r1) (h2 : EndsInName w before p2 r2) :
    p1 = p2 ∧ r1 = r2 := by
  have e : p1 ++ r1 = p2 ++ r2 := h1.split.symm.trans h2.split
  rcases List.append_eq_append_iff.1 e with ⟨a, ha, hb⟩ | ⟨a, ha, hb⟩
  · rcases List.eq_nil_or_concat a with rfl | ⟨l, c, hl⟩
    · simp at ha hb; exact ⟨ha.symm, hb⟩
    · exfalso
      rw [List.concat_eq_append] at hl
      subst hl
      have hc : nameChar w c = false := h2.maximal c (by rw [ha]; simp)
      have : nameChar w c = true := h1.all c (by rw [hb]; simp)
      rw [hc] at this; exact absurd this (by decide)
  · rcases List.eq_nil_or_concat a with rfl | ⟨l, c, hl⟩
    · simp at ha hb; exact ⟨ha, hb.symm⟩
    · exfalso
      rw [List.concat_eq_append] at hl
      subst hl
      have hc : nameChar w c = false := h1.maximal c (by rw [ha]; simp)
      have : nameChar w c = true := h2.all c (by rw [hb]; simp)
      rw [hc] at this; exact absurd this (by decide)

theorem extract_at (w : World) (lines : List Str) (line : Option Int) (column : Int) (text before : Str)
    (h : At lines line column text before) (pre run : Str) (hr : EndsInName w before pre run) :
    extract w lines (lineIndex line) (column - 1) =
      if '.' ∈ run then (Py.join1 '.' (Py.split1 '.' run).dropLast, (Py.split1 '.' run).getLast?.getD []) else ([], run) := by
  obtain ⟨pre', e1, e2, e3⟩ := takeWhile_rev (nameChar w) before
  have hr' : EndsInName w before pre' ((before.reverse.takeWhile (nameChar w)).reverse) := ⟨e1, e2, e3⟩
  have hrun := (run_unique w before pre run _ _ hr hr').2
  have hl : lines[(if lineIndex line < 0 then (0 : Int) else lineIndex line).toNat]? = some text := by
    have := h.onLine
    have hp := h.linePos
    cases line with
    | none => simpa [lineIndex] using this
    | some l =>
      simp only [Option.getD_some] at this hp
      have h0 : ¬ lineIndex (some l) < 0 := by show ¬ l - 1 < 0; omega
      rw [if_neg h0]; exact this
  have hc0 : (if column - 1 < 0 then (0 : Int) else column - 1) = column - 1 := by rw [if_neg]; have := h.col; omega
  have hb : text.take (if (column - 1).toNat ≥ text.length then text.length else (column - 1).toNat) = before := by
    rw [h.before]
    split
    · have := h.inside; have := h.col
      congr 1; omega
    · rfl
  unfold extract
  rw [part_eq]
  simp only [hl, hc0, hb, ← hrun]

theorem split1_last (s : Str) (h : '.' ∈ s) :
    ∃ q, (Py.split1 '.' s).getLast?.getD [] = q ∧ '.' ∉ q ∧ s = Py.join1 '.' (Py.split1 '.' s).dropLast ++ '.' :: q := by
  have hne := Py.split1_ne_nil '.' s
  rcases List.eq_nil_or_concat (Py.split1 '.' s) with h0 | ⟨l, q, hl⟩
  · exact absurd h0 hne
  · rw [List.concat_eq_append] at hl
    refine ⟨q, by rw [hl]; simp, Py.split1_no_sep '.' s q (by rw [hl]; simp), ?_⟩
    have hj := Py.join1_split1 '.' s
    rw [hl] at hj ⊢
    have hl0 : l ≠ [] := by
      rintro rfl
      have := Py.split1_no_sep '.' s q (by rw [hl]; simp)
      simp [Py.join1] at hj
      exact this (hj ▸ h)
    rw [Py.join1_append _ _ _ hl0 (by simp)] at hj
    rw [List.dropLast_concat]
    exact hj.symm

theorem nodup_eraseDups (l : List Str) : l.eraseDups.Nodup := by
  match l with
  | [] => simp
  | a :: as =>
    rw [List.eraseDups_cons, List.nodup_cons]
    exact ⟨by simp [List.mem_eraseDups], nodup_eraseDups _⟩
termination_by l.length
decreasing_by
  simp only [List.length_cons]
  have := List.length_filter_le (fun b => !b == a) as
  omega

/-! ### Theorems -/

/-- **C85 (what is completed).** The dotted name that ends at the cursor is cut at its last dot: the part behind
it is completed, the part before it says in what. There is exactly one way to cut. -/
theorem c85_token (w : World) (lines : List Str) (line : Option Int) (column : Int) (text before : Str)
    (h : At lines line column text before) :
    ∃ pre run, EndsInName w before pre run ∧
      let e := extract w lines (lineIndex line) (column - 1)
      '.' ∉ e.2 ∧ ((run = e.2 ∧ e.1 = []) ∨ run = e.1 ++ '.' :: e.2) := by
  obtain ⟨pre, e1, e2, e3⟩ := takeWhile_rev (nameChar w) before
  refine ⟨pre, _, ⟨e1, e2, e3⟩, ?_⟩
  rw [extract_at w lines line column text before h pre _ ⟨e1, e2, e3⟩]
  split
  · rename_i hd
    obtain ⟨q, a, b, c⟩ := split1_last _ hd
    simp only
    rw [a]
    exact ⟨b, Or.inr c⟩
  · rename_i hd
    exact ⟨hd, Or.inl ⟨rfl, rfl⟩⟩

/-- **C85 (what is replaced).** Every completion replaces exactly the part of the name behind its last dot, up to
the cursor, by a name that starts with it (in any case of letters); the rest of the line stays. Proviso: putting
the typed part in lower case does not change its length. -/
theorem c85_replaces (w : World) (lines : List Str) (line : Option Int) (column : Int) (text before : Str)
    (h : At lines line column text before) (is : List Item) (hi : onCompletions w lines line column = some is)
    (q : Str) (hq : (extract w lines (lineIndex line) (column - 1)).2 = q)
    (hlow : (w.lower q).length = q.length) (i : Item) (him : i ∈ is) :
    ∃ pre, text = pre ++ q ++ text.drop (column - 1).toNat ∧ before = pre ++ q ∧
      apply text i = pre ++ i.label ++ text.drop (column - 1).toNat ∧ w.lower q <+: w.lower i.label := by
  obtain ⟨pre, run, hr, hcut⟩ := c85_token w lines line column text before h
  rw [onCompletions, if_pos (by have := h.col; omega)] at hi
  injection hi with hi
  subst hi
  simp only at hcut
  rw [hq] at hcut
  have hbq : ∃ p, before = p ++ q := by
    rcases hcut.2 with ⟨a, _⟩ | a
    · exact ⟨pre, by rw [hr.split, a]⟩
    · exact ⟨pre ++ ((extract w lines (lineIndex line) (column - 1)).1 ++ ['.']), by
        rw [hr.split, a]; simp⟩
  obtain ⟨p, hp⟩ := hbq
  have htext : text = p ++ q ++ text.drop (column - 1).toNat := by
    conv => lhs; rw [← List.take_append_drop (column - 1).toNat text, ← h.before, hp]
  have hlen : p.length + q.length = (column - 1).toNat := by
    have e := h.before
    rw [hp] at e
    have := congrArg List.length e
    rw [List.length_append, List.length_take] at this
    have := h.inside; have := h.col
    omega
  refine ⟨p, htext, hp, ?_, ?_⟩
  · rw [items] at him
    simp only [List.mem_map, List.mem_filter] at him
    obtain ⟨l, _, rfl⟩ := him
    unfold apply
    simp only [hq, hlow]
    have hs : ((column - 1) - (q.length : Int)).toNat = p.length := by omega
    rw [hs, hlen]
    congr 2
    rw [htext, List.append_assoc, List.take_left']
    rfl
  · rw [items] at him
    simp only [List.mem_map, List.mem_filter] at him
    obtain ⟨l, ⟨_, hl⟩, rfl⟩ := him
    rw [Py.startsWith_iff, hq] at hl
    exact hl

/-- **C85 (what is offered, simple names).** For a name without a dot, the labels offered are exactly the names
visible in the frame (local, global or builtin) that start with what was typed, each once. -/
theorem c85_names (w : World) (lines : List Str) (line : Option Int) (column : Int) (text before : Str)
    (h : At lines line column text before) (pre run : Str) (hr : EndsInName w before pre run) (hd : '.' ∉ run)
    (hlow : ∀ n, Py.startsWith (w.lower n) (w.lower []) = true) :
    ∃ is, onCompletions w lines line column = some is ∧ (is.map Item.label).Nodup ∧
      ∀ n, n ∈ is.map Item.label ↔ (n ∈ w.locals ∨ n ∈ w.globals ∨ n ∈ w.builtins) ∧ w.lower run <+: w.lower n := by
  have he := extract_at w lines line column text before h pre run hr
  rw [if_neg hd] at he
  have hall : ∀ n ∈ allNames w, startsWithFilter w [] n = true := fun n _ => hlow n
  refine ⟨_, by rw [onCompletions, if_pos (by have := h.col; omega)], ?_, ?_⟩
  · rw [he]
    simp only [complete, if_true, items, List.map_map]
    rw [List.filter_eq_self.2 hall]
    have : (Item.label ∘ fun l => ({ label := l, start := column - 1 - (run.length : Int), length := (w.lower run).length } : Item)) = id := rfl
    rw [this, List.map_id]
    apply List.Nodup.sublist (List.filter_sublist)
    rw [allNames]
    exact nodup_eraseDups _
  · intro n
    rw [he]
    simp only [complete, if_true, items, List.map_map]
    rw [List.filter_eq_self.2 hall]
    have : (Item.label ∘ fun l => ({ label := l, start := column - 1 - (run.length : Int), length := (w.lower run).length } : Item)) = id := rfl
    rw [this, List.map_id, List.mem_filter, Py.startsWith_iff, allNames, List.mem_eraseDups]
    simp only [List.mem_append]
    grind

/-- **C85 (what is offered, attributes).** Behind a dot, the labels offered are exactly the attributes of what the
name before the dot evaluates to that start with what was typed (and `__dict__`, `__class__`); none if it cannot
be evaluated. Proviso: there is something before the dot. -/
theorem c85_attributes (w : World) (lines : List Str) (line : Option Int) (column : Int) (text before : Str)
    (h : At lines line column text before) (pre token q : Str) (hr : EndsInName w before pre (token ++ '.' :: q))
    (hq : '.' ∉ q) (ht : token ≠ []) (hlow : ∀ n, Py.startsWith (w.lower n) (w.lower []) = true) :
    ∃ is, onCompletions w lines line column = some is ∧
      ∀ n, n ∈ is.map Item.label ↔
        ∃ as, w.attrs token = some as ∧ (n ∈ as ∨ n = c!"__dict__" ∨ n = c!"__class__") ∧ w.lower q <+: w.lower n := by
  have he := extract_at w lines line column text before h pre _ hr
  have hsp : Py.split1 '.' (token ++ '.' :: q) = Py.split1 '.' token ++ [q] := by
    rw [Py.split1_append_sep, Py.split1_of_not_mem _ _ hq]
  rw [if_pos (by simp), hsp, List.dropLast_concat, Py.join1_split1, List.getLast?_append] at he
  simp only [List.getLast?_singleton, Option.some_or, Option.getD_some] at he
  refine ⟨_, by rw [onCompletions, if_pos (by have := h.col; omega)], ?_⟩
  intro n
  rw [he]
  simp only [complete, if_neg ht, items, List.map_map]
  have : (Item.label ∘ fun l => ({ label := l, start := column - 1 - (q.length : Int), length := (w.lower q).length } : Item)) = id := rfl
  rw [this, List.map_id]
  cases ha : w.attrs token with
  | none => simp
  | some as =>
    simp only [List.mem_filter, Py.startsWith_iff, dirComps, List.mem_append, List.mem_cons,
      List.not_mem_nil, or_false]
    constructor
    · rintro ⟨⟨a, _⟩, b⟩; exact ⟨as, rfl, a, b⟩
    · rintro ⟨as', e, a, b⟩
      injection e with e; subst e
      exact ⟨⟨a, hlow n⟩, b⟩

/-! ### Example and witnesses -/

/-- ASCII lower case. -/
def lowerA (s : Str) : Str := s.map Char.toLower

def exWorld : World :=
  { isIdent := fun c => c.isAlpha || c = '_' || c = 'é', lower := lowerA, builtins := [c!"print", c!"property"], globals := [c!"os", c!"Prefix"],
    locals := [c!"pré", c!"x"],
    attrs := fun e => if e = c!"os.path" then some [c!"join", c!"Joined", c!"exists"] else none }

/-- Both kinds of completions in the second line, behind other text. -/
theorem c85_example :
    At [c!"import os", c!"y = pr + 1"] (some 2) 7 c!"y = pr + 1" c!"y = pr" ∧
    EndsInName exWorld c!"y = pr" c!"y = " c!"pr" ∧
    onCompletions exWorld [c!"import os", c!"y = pr + 1"] (some 2) 7 =
      some [⟨c!"print", 4, 2⟩, ⟨c!"property", 4, 2⟩, ⟨c!"Prefix", 4, 2⟩, ⟨c!"pré", 4, 2⟩] ∧
    onCompletions exWorld [c!"a(os.path.jO)"] none 13 = some [⟨c!"join", 10, 2⟩, ⟨c!"Joined", 10, 2⟩] := by
  refine ⟨⟨by decide, by decide, by decide, by decide, by decide⟩, ⟨by decide, by decide, by decide⟩, by decide, by decide⟩

/-- Behind a call or an index (`f().pr`) names of the frame are offered as if they were attributes. -/
theorem c85_call_witness :
    onCompletions exWorld [c!"f().pri"] none 8 = some [⟨c!"print", 4, 3⟩] := by decide

/-- A cursor beyond the end of the line: the range sent is not in the line, and replacing it does not replace what
was typed. -/
theorem c85_beyond_witness :
    onCompletions exWorld [c!"pri"] none 10 = some [⟨c!"print", 6, 3⟩] ∧
      apply c!"pri" ⟨c!"print", 6, 3⟩ = c!"priprint" := by decide

/-- A character whose lower case is two characters (like `İ`): the range is longer than what was typed, and the
character behind the cursor is replaced too. -/
theorem c85_lower_witness :
    let w := { exWorld with lower := fun s => s.flatMap (fun c => if c = 'İ' then c!"i̇" else [c]), isIdent := fun c => c = 'İ', locals := [c!"İx"] }
    onCompletions w [c!"İ)"] none 2 = some [⟨c!"İx", 0, 2⟩] ∧ apply c!"İ)" ⟨c!"İx", 0, 2⟩ = c!"İx" := by decide

/-- `__class__` is an attribute of every object, so it is offered twice. -/
theorem c85_twice_witness (as : List Str) (h : c!"__class__" ∈ as) (w : World) (ha : w.attrs c!"x" = some as)
    (hlow : ∀ n, Py.startsWith (w.lower n) (w.lower []) = true) : (complete w c!"x").count c!"__class__" ≥ 2 := by
  have hall : ∀ n ∈ dirComps as, startsWithFilter w [] n = true := fun n _ => hlow n
  rw [complete, if_neg (by decide), ha]
  simp only
  rw [List.filter_eq_self.2 hall, dirComps, List.count_append]
  have : 0 < as.count c!"__class__" := List.count_pos_iff.2 h
  have e : List.count c!"__class__" [c!"__dict__", c!"__class__"] = 1 := by decide
  omega

end Complete
