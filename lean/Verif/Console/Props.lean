import Verif.Console.Model
/-!
# C81: commands typed in the console of a frame
-/
namespace Console

variable {W : Type}

/-! ## Specification -/

/-- A piece of what was typed: lines one after another for the same frame. -/
structure Block where
  key : Key
  lines : List Text

/-- The source a block makes. -/
def Block.source (b : Block) : Text := Py.join1 '\n' b.lines

/-- Lines were added as long as the source was not complete. -/
def Block.Ok (env : Env W) (b : Block) : Prop :=
  b.lines ≠ [] ∧ ∀ p q, b.lines = p ++ q → p ≠ [] → q ≠ [] → env.compile (Py.join1 '\n' p) = .more

/-- What was typed, cut into blocks. -/
def typed (bs : List Block) : List (Key × Text) := bs.flatMap fun b => b.lines.map fun l => (b.key, l)

/-- The blocks which are complete. -/
def complete (env : Env W) (bs : List Block) : List (Key × Text) :=
  (bs.filter fun b => env.compile b.source = .code).map fun b => (b.key, b.source)

/-- A block that is not complete is the last, or lines for another frame follow. -/
def GivenUp (env : Env W) (bs : List Block) : Prop :=
  ∀ (i : Nat) b b', bs[i]? = some b → bs[i + 1]? = some b' → env.compile b.source = .more → b.key ≠ b'.key

/-- The lines of a text which are not blank. -/
def shown (sp : Char → Bool) (t : Text) : List Text := (Py.split1 '\n' t).filter fun m => !m.all sp

/-- Texts written one after another, each with whole lines: it ends with a newline, the next one begins
with one, or it is the last. -/
def Whole : List Text → Prop
  | [] => True
  | [_] => True
  | a :: b :: r => ((∃ x, a = x ++ ['\n']) ∨ (∃ x, b = '\n' :: x)) ∧ Whole (b :: r)

/-! ## Streams -/

/-- After a command whose output is caught, `sys.stdout`, `sys.stderr` and `sys.stdin` are what they were,
whatever the command did to them and however it ended. -/
theorem c81_streams (env : Env W) (s : State W) (k : Key) (line : Text) :
    let s' := (command env s k line true).1
    s'.sys.stdout = s.sys.stdout ∧ s'.sys.stderr = s.sys.stderr ∧ s'.sys.stdin = s.sys.stdin := by
  simp [command]

/-- So it is after any number of commands. -/
theorem c81_streams_run (env : Env W) (s : State W) (cs : List Cmd) (hb : ∀ c ∈ cs, c.buffered = true) :
    (run env s cs).sys.stdout = s.sys.stdout ∧ (run env s cs).sys.stderr = s.sys.stderr ∧
    (run env s cs).sys.stdin = s.sys.stdin := by
  induction cs generalizing s with
  | nil => exact ⟨rfl, rfl, rfl⟩
  | cons c cs ih =>
    have h := ih (command env s c.key c.line c.buffered).1 (fun d hd => hb d (by simp [hd]))
    rw [hb c (by simp)] at h
    obtain ⟨a, b, d⟩ := c81_streams env s c.key c.line
    rw [run, hb c (by simp)]
    exact ⟨h.1.trans a, h.2.1.trans b, h.2.2.trans d⟩

/-! ## What is run -/

/-- What holds after every command. -/
structure Inv (env : Env W) (s : State W) (cs : List (Key × Text)) (bs : List Block) : Prop where
  typed : cs = typed bs
  ok : ∀ b ∈ bs, b.Ok env
  givenUp : GivenUp env bs
  ran : s.ran = complete env bs
  cache : match bs.getLast? with
    | none => s.cache = none
    | some b => s.cache = some (b.key, if env.compile b.source = .more then b.lines else [])

theorem getElem?_snoc (bs : List Block) (b : Block) (i : Nat) (x : Block) (h : (bs ++ [b])[i]? = some x) :
    bs[i]? = some x ∨ (i = bs.length ∧ x = b) := by
  by_cases hi : i < bs.length
  · rw [List.getElem?_append_left hi] at h; exact .inl h
  · rw [List.getElem?_append_right (by omega)] at h
    by_cases e : i = bs.length
    · subst e; simp at h; exact .inr ⟨rfl, h.symm⟩
    · rw [List.getElem?_eq_none (by simp; omega)] at h; simp at h

/-- No code run exits. -/
def NoExit (env : Env W) : Prop := ∀ src f w sys, (env.exec src f w sys).outcome ≠ .exit

theorem runcode_exit (env : Env W) (h : NoExit env) (src : Text) (f : Nat) (w : W) (sys : Sys) :
    (runcode env src f w sys).outcome ≠ .exit := by
  unfold runcode
  have := h src f w sys
  cases ho : (env.exec src f w sys).outcome <;> simp_all

theorem command_state (env : Env W) (h : NoExit env) (s : State W) (k : Key) (line : Text) (buffered : Bool) :
    let lines := (console env s k).1 ++ [line]
    (command env s k line buffered).1.cache =
      some (k, if env.compile (Py.join1 '\n' lines) = .more then lines else []) ∧
    (command env s k line buffered).1.ran =
      s.ran ++ (if env.compile (Py.join1 '\n' lines) = .code then [(k, Py.join1 '\n' lines)] else []) := by
  simp only [command, pushLine]
  cases hc : env.compile (Py.join1 '\n' ((console env s k).1 ++ [line])) with
  | more => simp
  | wrong m => simp
  | code =>
    have := runcode_exit env h
    simp [this]

theorem ok_single (env : Env W) (k : Key) (line : Text) : Block.Ok env ⟨k, [line]⟩ := by
  refine ⟨by simp, ?_⟩
  intro p q e hp hq
  cases p with
  | nil => exact absurd rfl hp
  | cons a p =>
    simp at e
    exact absurd e.2.2 hq

theorem ok_snoc (env : Env W) (b : Block) (ok : b.Ok env) (hm : env.compile b.source = .more) (line : Text) :
    Block.Ok env ⟨b.key, b.lines ++ [line]⟩ := by
  refine ⟨by simp, ?_⟩
  intro p q e hp hq
  rcases List.eq_nil_or_concat q with rfl | ⟨q', x, rfl⟩
  · exact absurd rfl hq
  · rw [List.concat_eq_append, ← List.append_assoc] at e
    have := List.append_inj_left' e (by simp)
    by_cases hq' : q' = []
    · subst hq'
      simp at this
      rw [← this]; exact hm
    · exact ok.2 p q' this hp hq'

theorem inv_new (env : Env W) (s : State W) (cs : List (Key × Text)) (bs : List Block) (inv : Inv env s cs bs)
    (s' : State W) (k : Key) (line : Text)
    (hkey : ∀ b, bs.getLast? = some b → env.compile b.source = .more → b.key ≠ k)
    (hc : s'.cache = some (k, if env.compile line = .more then [line] else []))
    (hr : s'.ran = s.ran ++ (if env.compile line = .code then [(k, line)] else [])) :
    Inv env s' (cs ++ [(k, line)]) (bs ++ [⟨k, [line]⟩]) := by
  refine ⟨?_, ?_, ?_, ?_, ?_⟩
  · rw [inv.typed]; simp [Console.typed]
  · intro b hb
    rcases List.mem_append.1 hb with hb | hb
    · exact inv.ok b hb
    · simp at hb; subst hb; exact ok_single env k line
  · intro i b b' h1 h2 hm
    rcases getElem?_snoc _ _ _ _ h2 with h2 | ⟨hi, rfl⟩
    · rcases getElem?_snoc _ _ _ _ h1 with h1 | ⟨hi, rfl⟩
      · exact inv.givenUp i b b' h1 h2 hm
      · rw [List.getElem?_eq_none (by omega)] at h2; simp at h2
    · rcases getElem?_snoc _ _ _ _ h1 with h1 | ⟨hi', rfl⟩
      · refine hkey b ?_ hm
        rw [List.getLast?_eq_getElem?, show bs.length - 1 = i by omega]
        exact h1
      · omega
  · rw [hr, inv.ran]
    simp only [complete, List.filter_append, List.map_append, Block.source, Py.join1, List.filter_cons, List.filter_nil]
    by_cases e : env.compile line = .code <;> simp [e, Py.join1]
  · simp only [List.getLast?_append, List.getLast?_singleton, Option.some_or]
    exact hc

theorem inv_step (env : Env W) (h : NoExit env) (s : State W) (cs : List (Key × Text)) (bs : List Block)
    (inv : Inv env s cs bs) (k : Key) (line : Text) (buffered : Bool) :
    ∃ bs', Inv env (command env s k line buffered).1 (cs ++ [(k, line)]) bs' := by
  obtain ⟨hc, hr⟩ := command_state env h s k line buffered
  have hcache := inv.cache
  rcases List.eq_nil_or_concat bs with rfl | ⟨bs0, b, rfl⟩
  · simp at hcache
    simp only [console, hcache, List.nil_append, Py.join1] at hc hr
    exact ⟨_, inv_new env s cs [] inv _ k line (by simp) hc hr⟩
  · rw [List.concat_eq_append] at *
    simp only [List.getLast?_append, List.getLast?_singleton, Option.some_or] at hcache
    by_cases hk : b.key = k ∧ env.compile b.source = .more
    · obtain ⟨rfl, hm⟩ := hk
      simp only [hm, if_true] at hcache
      simp only [console, hcache, if_true] at hc hr
      refine ⟨bs0 ++ [⟨b.key, b.lines ++ [line]⟩], ?_, ?_, ?_, ?_, ?_⟩
      · rw [inv.typed]; simp [typed]
      · intro b' hb'
        rcases List.mem_append.1 hb' with hb' | hb'
        · exact inv.ok b' (by simp [hb'])
        · simp at hb'; subst hb'
          exact ok_snoc env b (inv.ok b (by simp)) hm line
      · intro i x y h1 h2 hm'
        rcases getElem?_snoc _ _ _ _ h2 with h2 | ⟨hi, rfl⟩
        · rcases getElem?_snoc _ _ _ _ h1 with h1 | ⟨hi, rfl⟩
          · refine inv.givenUp i x y ?_ ?_ hm'
            · rw [List.getElem?_append_left (by have := List.getElem?_eq_some_iff.1 h1; exact this.1)]; exact h1
            · rw [List.getElem?_append_left (by have := List.getElem?_eq_some_iff.1 h2; exact this.1)]; exact h2
          · rw [List.getElem?_eq_none (by omega)] at h2; simp at h2
        · rcases getElem?_snoc _ _ _ _ h1 with h1 | ⟨hi', rfl⟩
          · refine inv.givenUp i x b ?_ ?_ hm'
            · rw [List.getElem?_append_left (by have := List.getElem?_eq_some_iff.1 h1; exact this.1)]; exact h1
            · rw [hi]; simp
          · omega
      · rw [hr, inv.ran]
        simp only [complete, List.filter_append, List.map_append, Block.source] at hm ⊢
        by_cases e : env.compile (Py.join1 '\n' (b.lines ++ [line])) = .code <;> simp [e, hm]
      · simp only [List.getLast?_append, List.getLast?_singleton, Option.some_or, Block.source]
        exact hc
    · have hcon : (console env s k).1 = [] := by
        simp only [console, hcache]
        split
        · rename_i e
          have : env.compile b.source ≠ .more := fun hm => hk ⟨e, hm⟩
          simp [this]
        · rfl
      rw [hcon] at hc hr
      simp only [List.nil_append, Py.join1] at hc hr
      refine ⟨_, inv_new env s cs _ inv _ k line ?_ hc hr⟩
      intro b' hb' hm e
      simp at hb'
      subst hb'
      exact hk ⟨e, hm⟩

theorem inv_run (env : Env W) (h : NoExit env) (s : State W) (cs0 : List (Key × Text)) (bs : List Block)
    (inv : Inv env s cs0 bs) (cs : List Cmd) :
    ∃ bs', Inv env (run env s cs) (cs0 ++ cs.map fun c => (c.key, c.line)) bs' := by
  induction cs generalizing s cs0 bs with
  | nil => exact ⟨bs, by simpa [run] using inv⟩
  | cons c cs ih =>
    obtain ⟨bs', inv'⟩ := inv_step env h s cs0 bs inv c.key c.line c.buffered
    obtain ⟨bs'', inv''⟩ := ih _ _ _ inv'
    exact ⟨bs'', by simpa [run] using inv''⟩

/-- For every history of commands in any frames of any threads: what was typed is cut into blocks, each
of lines for one frame that were added as long as the source was not complete; what was run is exactly
the complete blocks, in order, each once and in its frame; and a block is left incomplete only at the
end or because lines for another frame followed. -/
theorem c81_run (env : Env W) (h : NoExit env) (s : State W) (h0 : s.cache = none) (hr : s.ran = []) (cs : List Cmd) :
    ∃ bs : List Block, (cs.map fun c => (c.key, c.line)) = typed bs ∧ (∀ b ∈ bs, b.Ok env) ∧ GivenUp env bs ∧
      (run env s cs).ran = complete env bs := by
  have inv0 : Inv env s [] [] :=
    ⟨rfl, by simp, fun i b b' h1 => by simp at h1, by rw [hr]; rfl, h0⟩
  obtain ⟨bs, inv⟩ := inv_run env h s [] [] inv0 cs
  exact ⟨bs, by simpa using inv.typed, inv.ok, inv.givenUp, inv.ran⟩

/-! ## What is shown -/

/-- What a command wrote, with what was shown of an exception or a syntax error. -/
def written (env : Env W) (s : State W) (k : Key) (line : Text) : List (Nat × Text) :=
  (pushLine env (console env s k).1 line k.frame s.world
    { s.sys with stdout := s.fresh, stderr := s.fresh + 1, stdin := s.fresh + 2, hook := s.sys.defaultHook }).2.2.1.writes

theorem addMessage_shown (sp : Char → Bool) (err : Bool) (t : Text) : addMessage sp err t = (shown sp t).map fun m => (err, m) := rfl

theorem shown_append (sp : Char → Bool) (a b : Text) (h : (∃ x, a = x ++ ['\n']) ∨ (∃ x, b = '\n' :: x)) :
    shown sp (a ++ b) = shown sp a ++ shown sp b := by
  have e : ∀ (x y : Text), shown sp (x ++ '\n' :: y) = shown sp x ++ shown sp y := by
    intro x y; simp [shown, Py.split1_append_sep]
  have n : shown sp [] = [] := by simp [shown, Py.split1]
  rcases h with ⟨x, rfl⟩ | ⟨x, rfl⟩
  · rw [List.append_assoc, e x [], n, List.append_nil]
    exact e x b
  · rw [e a x]
    have := e [] x
    simp only [List.nil_append, n] at this
    rw [this]

theorem shown_whole (sp : Char → Bool) (ws : List Text) (h : Whole ws) : ws.flatMap (shown sp) = shown sp ws.flatten := by
  induction ws with
  | nil => simp [shown, Py.split1]
  | cons a ws ih =>
    cases ws with
    | nil => simp
    | cons b r =>
      rw [List.flatMap_cons, ih h.2, List.flatten_cons]
      refine (shown_append sp a _ ?_).symm
      rcases h.1 with h | ⟨x, rfl⟩
      · exact .inl h
      · exact .inr ⟨x ++ r.flatten, by simp⟩

/-- The reply to a command which did not exit, if it writes whole lines: the lines written to standard
output which are not blank, then those written to standard error; before that, for a new console, where
the frame is; and that more is needed exactly if the source is not complete. -/
theorem c81_reply (env : Env W) (h : NoExit env) (s : State W) (k : Key) (line : Text)
    (wo : Whole (to s.fresh (written env s k line))) (we : Whole (to (s.fresh + 1) (written env s k line))) :
    (command env s k line true).2 =
      .messages (decide (env.compile (Py.join1 '\n' ((console env s k).1 ++ [line])) = .more))
        ((console env s k).2 ++
          (shown env.space (to s.fresh (written env s k line)).flatten).map (fun m => (false, m)) ++
          (shown env.space (to (s.fresh + 1) (written env s k line)).flatten).map (fun m => (true, m))) := by
  have hx : (pushLine env (console env s k).1 line k.frame s.world
      { s.sys with stdout := s.fresh, stderr := s.fresh + 1, stdin := s.fresh + 2, hook := s.sys.defaultHook }).2.2.1.outcome ≠ .exit := by
    simp only [pushLine]
    split
    · simp
    · simp
    · exact runcode_exit env h _ _ _ _
  have hm : (pushLine env (console env s k).1 line k.frame s.world
      { s.sys with stdout := s.fresh, stderr := s.fresh + 1, stdin := s.fresh + 2, hook := s.sys.defaultHook }).2.1 =
      decide (env.compile (Py.join1 '\n' ((console env s k).1 ++ [line])) = .more) := by
    simp only [pushLine]
    split <;> rename_i e <;> simp [e]
  rw [← shown_whole _ _ wo, ← shown_whole _ _ we]
  have fm : ∀ (err : Bool) (ws : List Text), ws.flatMap (addMessage env.space err) = (ws.flatMap (shown env.space)).map fun m => (err, m) := by
    intro err ws
    induction ws with
    | nil => rfl
    | cons a r ih => rw [List.flatMap_cons, List.flatMap_cons, List.map_append, ih]; rfl
  rw [← fm, ← fm, ← hm]
  simp only [command, if_true]
  exact if_neg hx

/-- Where the frame is is told exactly for the first command, and if the command before was for another
frame. -/
theorem c81_hello (env : Env W) (s : State W) (k : Key) :
    (console env s k).2 = if s.cache.map (·.1) = some k then [] else addMessage env.space false (env.place k.frame) := by
  unfold console
  cases s.cache with
  | none => simp
  | some c => simp only [Option.map_some, Option.some.injEq]; split <;> rfl

/-! ## A case, and witnesses -/

/-- Sources: an `if` needs another line, `exit()` exits; others are run and write. -/
def env1 : Env Nat where
  compile t := if t = "if 1:".toList then .more else if t = "?".toList then .wrong "bad\n".toList
    else if t = "exit()\n1".toList then .wrong "multiple statements\n".toList else .code
  exec t _ w sys :=
    if t = "exit()".toList then ⟨w, sys, [], .exit⟩
    else if t = "print(1, 2)".toList then
      ⟨w, sys, [(sys.stdout, "1".toList), (sys.stdout, " ".toList), (sys.stdout, "2".toList), (sys.stdout, "\n".toList)], .normal⟩
    else ⟨w + 1, { sys with stdout := 99 }, [(sys.stdout, "a\nb\n".toList)], .raised "E\n".toList⟩
  place _ := "here".toList
  space c := c == ' '

def s1 : State Nat := ⟨none, ⟨0, 1, 2, 50, 51⟩, 0, 100, []⟩
def k1 : Key := ⟨0, 0⟩

theorem c81_example :
    let a := command env1 s1 k1 "if 1:".toList true
    let b := command env1 a.1 k1 " f()".toList true
    a.2 = .messages true [(false, "here".toList)] ∧
    b.2 = .messages false [(false, "a".toList), (false, "b".toList), (true, "E".toList)] ∧
    b.1.ran = [(k1, "if 1:\n f()".toList)] ∧ b.1.sys.stdout = 0 := by decide +kernel

/-- `NoExit` can be met. -/
theorem c81_example_no_exit : NoExit ({ env1 with exec := fun _ _ w sys => ⟨w, sys, [], .normal⟩ } : Env Nat) := by
  intro _ _ _ _; simp

/-- `print(1, 2)` is shown as two lines. -/
theorem c81_print_witness :
    (command env1 s1 k1 "print(1, 2)".toList true).2 =
      .messages false [(false, "here".toList), (false, "1".toList), (false, "2".toList)] := by decide +kernel

/-- After `exit()` the next command, right as it is, is not run: it is put after the line which exited. -/
theorem c81_exit_witness :
    let a := command env1 s1 k1 "exit()".toList true
    let b := command env1 a.1 k1 "1".toList true
    a.2 = .error ∧ env1.compile "1".toList = .code ∧
    b.2 = .messages false [(true, "multiple statements".toList)] ∧ b.1.ran = [(k1, "exit()".toList)] := by decide +kernel

/-- Any command, even a line which is not complete, replaces the program's `sys.excepthook` (50) for good. -/
theorem c81_hook_witness : (command env1 s1 k1 "if 1:".toList true).1.sys.hook = 51 := by decide +kernel

end Console
