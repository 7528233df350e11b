import Verif.TemplateVars.Model
/-!
C117: the variables of a template are shown with the values the template has for them.
-/

namespace TemplateVars
open Py

variable {α : Type}

/-- What a Django template finds for a name: the newest dictionary of its context that has it. -/
def djangoLookup (dicts : List (List (Name × α))) (k : Name) : Option α :=
  dicts.reverse.findSome? fun d => Dict.get d k

/-- The name of a local of Jinja2's code for the variable `n` of a template at a level (of loops, macros). -/
def localName (level n : Name) : Name := c!"l_" ++ level ++ '_' :: n

theorem update_get (res : List (Name × α)) {d : List (Name × α)} (ok : Dict.Ok d) (k : Name) :
    Dict.get (update res d) k = (Dict.get d k).or (Dict.get res k) := by
  induction d generalizing res with
  | nil => rfl
  | cons e d ih =>
    obtain ⟨a, v⟩ := e
    have ok' : Dict.Ok d := (List.nodup_cons.mp ok).2
    have hna : a ∉ d.map (·.1) := (List.nodup_cons.mp ok).1
    rw [update, ih _ ok', Dict.get_set, Dict.get_cons]
    by_cases h : a = k
    · subst h
      rw [(Dict.get_none_iff d a).mpr hna]
      simp
    · rw [if_neg (Ne.symm h), if_neg h]

/-- **C117**, Django: each name is shown with the value the template finds for it, and no other name is shown. -/
theorem c117_django (dicts : List (List (Name × α))) (ok : ∀ d ∈ dicts, Dict.Ok d) (k : Name) :
    Dict.get (django dicts) k = djangoLookup dicts k := by
  have key : ∀ (l : List (List (Name × α))) (res : List (Name × α)), (∀ d ∈ l, Dict.Ok d) →
      Dict.get (l.foldl update res) k = (djangoLookup l k).or (Dict.get res k) := by
    intro l
    induction l with
    | nil => intro res _; rfl
    | cons d l ih =>
      intro res ok
      rw [List.foldl_cons, ih _ (fun x hx => ok x (List.mem_cons_of_mem _ hx)), update_get _ (ok d (List.mem_cons_self ..))]
      unfold djangoLookup
      rw [List.reverse_cons, List.findSome?_append]
      cases hf : l.reverse.findSome? (fun d => Dict.get d k) with
      | some v => simp
      | none => simp
  have := key dicts [] ok
  rw [django, this, Dict.get_nil]
  simp

/-! ### Jinja2 -/

/-- What a local gives to what is shown. -/
def gives (truthy missing : α → Bool) (e : Name × α) : Option (Name × α) :=
  if startsWith e.1 c!"l_" then (if truthy e.2 && !missing e.2 then some (realName (e.1.drop 2), e.2) else none) else some e

theorem collect_get (truthy missing : α → Bool) (res locals : List (Name × α)) (k : Name) :
    Dict.get (collectLocals truthy missing res locals) k =
      ((locals.reverse.findSome? fun e => match gives truthy missing e with
        | some (n, v) => if n = k then some v else none
        | none => none).or (Dict.get res k)) := by
  induction locals generalizing res with
  | nil => rfl
  | cons e rest ih =>
    obtain ⟨a, v⟩ := e
    rw [collectLocals, ih, List.reverse_cons, List.findSome?_append]
    cases hf : rest.reverse.findSome? (fun e => match gives truthy missing e with
        | some (n, v) => if n = k then some v else none
        | none => none) with
    | some w => simp
    | none =>
      rw [Option.none_or, Option.none_or]
      unfold gives
      cases hs : startsWith a c!"l_" with
      | false => simp [hs, Dict.get_set]; grind
      | true =>
        cases ht : truthy v && !missing v with
        | false =>
          have ht' : ¬(truthy v = true ∧ missing v = false) := by
            intro ⟨h1, h2⟩; rw [h1, h2] at ht; cases ht
          simp [hs, ht']
        | true => simp [hs, ht, Dict.get_set]; grind

/-- **C117**, Jinja2: each variable of the template's context is shown with its value. -/
theorem c117_jinja_context (truthy missing : α → Bool) (locals : List (Name × α)) {c : List (Name × α)} (ok : Dict.Ok c) {k : Name} {v : α}
    (hk : Dict.get c k = some v) : Dict.get (jinja truthy missing locals (some c)) k = some v := by
  unfold jinja
  dsimp only
  rw [update_get _ ok, hk]
  rfl

theorem realName_local (level n : Name) (hl : isDigit level = true) (hn : '_' ∉ n) : realName ((localName level n).drop 2) = n := by
  have hlv : '_' ∉ level := by
    intro h
    have := (Bool.and_eq_true_iff.mp hl).2
    rw [List.all_eq_true] at this
    have := this _ h
    revert this
    decide
  have hd : (localName level n).drop 2 = level ++ '_' :: n := rfl
  unfold realName
  rw [hd, split1_append _ _ _ hlv, split1_of_not_mem _ _ hn]
  dsimp only
  rw [if_pos hl]

/-- **C117**, Jinja2: a variable of the template itself (of a loop, a macro, a `set`) whose name has no underscore, whose value is true as a condition
and for which there is no variable in the context, is shown with its value, as long as no later local is shown with its name. -/
theorem c117_jinja_local_partial (truthy missing : α → Bool) {locals before after : List (Name × α)} (context : Option (List (Name × α)))
    (okc : ∀ c, context = some c → Dict.Ok c) {level n : Name} {v : α} (hl : isDigit level = true) (hn : '_' ∉ n)
    (hloc : locals = before ++ (localName level n, v) :: after) (ht : truthy v = true) (hm : missing v = false)
    (hafter : ∀ e ∈ after, ∀ w, gives truthy missing e ≠ some (n, w)) (hctx : ∀ c, context = some c → Dict.get c n = none) :
    Dict.get (jinja truthy missing locals context) n = some v := by
  have hg : gives truthy missing (localName level n, v) = some (n, v) := by
    unfold gives
    have : startsWith (localName level n) c!"l_" = true := by
      unfold localName
      simp [startsWith]
    simp only [this, if_true, ht, hm, Bool.not_false, Bool.and_self, realName_local level n hl hn]
  have hcol : Dict.get (collectLocals truthy missing [] locals) n = some v := by
    rw [collect_get, hloc, List.reverse_append, List.reverse_cons, List.findSome?_append, List.findSome?_append]
    have h0 : after.reverse.findSome? (fun e => match gives truthy missing e with
        | some (m, v) => if m = n then some v else none
        | none => none) = none := by
      rw [List.findSome?_eq_none_iff]
      intro e he
      have he := hafter e (List.mem_reverse.mp he)
      split
      · rename_i m w hmw
        rw [if_neg]
        intro hmn
        rw [hmn] at hmw
        exact he w hmw
      · rfl
    rw [h0]
    simp [hg]
  unfold jinja
  dsimp only
  split
  · exact hcol
  · rename_i c
    rw [update_get _ (okc c rfl), hctx c rfl, hcol]
    rfl

/-- **C117**, Jinja2: nothing else is shown: a name shown is one of the context, a Python local that is not one of the template, or from a local of
the template with that value. -/
theorem c117_jinja_only (truthy missing : α → Bool) (locals : List (Name × α)) (context : Option (List (Name × α)))
    (okc : ∀ c, context = some c → Dict.Ok c) {k : Name} {v : α} (h : Dict.get (jinja truthy missing locals context) k = some v) :
    (∃ c, context = some c ∧ Dict.get c k = some v) ∨ ∃ e ∈ locals, gives truthy missing e = some (k, v) := by
  have hcol : Dict.get (collectLocals truthy missing [] locals) k = some v → ∃ e ∈ locals, gives truthy missing e = some (k, v) := by
    intro h
    rw [collect_get, Dict.get_nil, Option.or_none] at h
    obtain ⟨e, he, hv⟩ := List.exists_of_findSome?_eq_some h
    refine ⟨e, List.mem_reverse.mp he, ?_⟩
    split at hv
    · rename_i n w hg
      split at hv
      · rename_i hn; cases hv; rw [hg, hn]
      · cases hv
    · cases hv
  unfold jinja at h
  dsimp only at h
  split at h
  · exact .inr (hcol h)
  · rename_i c
    rw [update_get _ (okc c rfl)] at h
    cases hc : Dict.get c k with
    | some w => rw [hc] at h; cases h; exact .inl ⟨c, rfl, hc⟩
    | none => rw [hc] at h; exact .inr (hcol h)

/-! ### Examples and witnesses -/

/-- Values are numbers; 0 is false as a condition; there is no missing one. -/
def tr (n : Nat) : Bool := n != 0
def ms (_ : Nat) : Bool := false

theorem c117_example : Dict.get (jinja tr ms [(c!"context", 9), (c!"l_0_user", 1), (c!"l_1_item", 5)] (some [(c!"title", 3)])) c!"item" = some 5 :=
  c117_jinja_local_partial tr ms (before := [(c!"context", 9), (c!"l_0_user", 1)]) (after := []) (some [(c!"title", 3)])
    (by intro c hc; cases hc; unfold Dict.Ok; decide) (level := c!"1") (n := c!"item") (by decide) (by decide) rfl rfl rfl (by intro e he; cases he)
    (by intro c hc; cases hc; decide)

/-- A variable `user_name` of a loop is shown as `user`. -/
theorem c117_underscore_witness : jinja tr ms [(localName c!"1" c!"user_name", 5)] none = [(c!"user", 5)] := by decide

/-- A variable of a loop that is 0 (empty, false) is not shown. -/
theorem c117_false_witness : jinja tr ms [(localName c!"1" c!"item", 0)] none = [] := by decide

/-- A variable of a loop with the name of one of the context is shown with the value of the context. -/
theorem c117_shadow_witness : Dict.get (jinja tr ms [(localName c!"1" c!"item", 5)] (some [(c!"item", 7)])) c!"item" = some 7 := by decide

/-- Changing a variable of a template never gets through: the plugins pass a keyword `scope` their own functions do not take. -/
theorem c117_change_witness : jinjaChange = false ∧ djangoChange = false := by decide

end TemplateVars
