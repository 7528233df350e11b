import Verif.Redirect.Model

/-!
# C74: output reaches the program's stream and the client, once, and the streams are put back
-/
namespace Redirect

/-! ## The specification: what a program writes -/

/-- The texts a program writes before it ends, and whether it raises. -/
def texts : Prog → List String × Bool
  | .skip => ([], false)
  | .write t => ([t], false)
  | .seq a b =>
    match texts a with
    | (x, true) => (x, true)
    | (x, false) => (x ++ (texts b).1, (texts b).2)
  | .repl p => texts p
  | .buffered _ p => texts p
  | .raise => ([], true)

/-- The texts it writes while output goes to the client: all, if it does from the start; else those
in the repl. -/
def shown (on : Bool) (p : Prog) : List String :=
  if on then (texts p).1 else
  match p with
  | .skip => []
  | .write _ => []
  | .seq a b => if (texts a).2 then shown false a else shown false a ++ shown false b
  | .repl p => (texts p).1
  | .buffered _ p => shown false p
  | .raise => []

/-- Whether a program uses a buffer. -/
def usesBuffer (i : Nat) : Prog → Bool
  | .seq a b => usesBuffer i a || usesBuffer i b
  | .repl p => usesBuffer i p
  | .buffered j p => j == i || usesBuffer i p
  | _ => false

/-! ## What a write reaches -/

/-- How often a stream passes a text on to a sink. -/
def Stream.count (k : Sink) : Stream → Nat
  | .own => if k = .own then 1 else 0
  | .other _ => 0
  | .redirector _ o s => o.count k + if k = s then 1 else 0

theorem write_own (t : String) : ∀ (s : Stream) (l : Log),
    (s.write t l).own = l.own ++ List.replicate (s.count .own) t
  | .own, l => by simp [Stream.write, Log.add, Stream.count]
  | .other n, l => by simp [Stream.write, Stream.count]
  | .redirector i o k, l => by
    have ih := write_own t o l
    cases k with
    | own => simp [Stream.write, Log.add, Stream.count, ih, List.replicate_succ']
    | client =>
      simp only [Stream.write, Log.add, Stream.count]
      split <;> simp [ih]
    | buffer j => simp [Stream.write, Log.add, Stream.count, ih]

theorem write_client (t : String) : ∀ (s : Stream) (l : Log),
    (s.write t l).client = l.client ++ (List.replicate (s.count .client) t).filter (· ≠ "")
  | .own, l => by simp [Stream.write, Log.add, Stream.count]
  | .other n, l => by simp [Stream.write, Stream.count]
  | .redirector i o k, l => by
    have ih := write_client t o l
    cases k with
    | own => simp [Stream.write, Log.add, Stream.count, ih]
    | client =>
      simp only [Stream.write, Log.add, Stream.count, if_true]
      rw [List.replicate_succ', List.filter_append]
      by_cases ht : t = ""
      · rw [if_pos ht, ih]
        simp [ht]
      · rw [if_neg ht]
        simp [ih, ht]
    | buffer j => simp [Stream.write, Log.add, Stream.count, ih]

theorem write_buffer (t : String) (j : Nat) : ∀ (s : Stream) (l : Log),
    (s.write t l).buffer j = l.buffer j ++ List.replicate (s.count (.buffer j)) t
  | .own, l => by simp [Stream.write, Log.add, Stream.count]
  | .other n, l => by simp [Stream.write, Stream.count]
  | .redirector i o k, l => by
    have ih := write_buffer t j o l
    cases k with
    | own => simp [Stream.write, Log.add, Stream.count, ih]
    | client =>
      simp only [Stream.write, Log.add, Stream.count]
      split <;> simp [ih]
    | buffer m =>
      simp only [Stream.write, Log.add, Stream.count]
      by_cases hm : j = m
      · subst hm
        simp [ih, List.replicate_succ']
      · simp [ih, hm]

/-- **The streams are put back.** Whatever a program does — evaluations in the repl inside tests
whose output is caught, inside each other, to any depth, ended by exceptions or not — afterwards the
stream, the stack and the redirection to the client are what they were. -/
theorem c74_restored (p : Prog) : ∀ s : State, (exec p s).1.std = s.std ∧
    (exec p s).1.stack = s.stack ∧ (exec p s).1.holder = s.holder ∧ s.fresh ≤ (exec p s).1.fresh := by
  induction p with
  | skip => intro s; exact ⟨rfl, rfl, rfl, Nat.le_refl _⟩
  | write t => intro s; exact ⟨rfl, rfl, rfl, Nat.le_refl _⟩
  | raise => intro s; exact ⟨rfl, rfl, rfl, Nat.le_refl _⟩
  | seq a b iha ihb =>
    intro s
    have ha := iha s
    simp only [exec]
    split
    · rename_i s' h; rw [h] at ha; exact ha
    · rename_i s' h
      rw [h] at ha
      have hb := ihb s'
      exact ⟨hb.1.trans ha.1, hb.2.1.trans ha.2.1, hb.2.2.1.trans ha.2.2.1,
        Nat.le_trans ha.2.2.2 hb.2.2.2⟩
  | repl p ih =>
    intro s
    simp only [exec, redirect]
    cases hh : s.holder with
    | some i => simp only; have := ih s; rw [hh] at this; exact this
    | none =>
      simp only [start, List.head?_cons]
      have := ih { s with
        std := Stream.redirector s.fresh s.std .client
        stack := ⟨s.std, Stream.redirector s.fresh s.std .client⟩ :: s.stack
        holder := some ⟨s.std, Stream.redirector s.fresh s.std .client⟩
        fresh := s.fresh + 1 }
      obtain ⟨h1, h2, h3, h4⟩ := this
      simp only at h1 h2 h3 h4
      simp only [stop, h3, h1, h2, List.tail_cons, if_true]
      exact ⟨trivial, trivial, trivial, by omega⟩
  | buffered i p ih =>
    intro s
    have := ih (start s (.buffer i))
    obtain ⟨h1, h2, h3, h4⟩ := this
    simp only [start] at h1 h2 h3 h4
    simp only [exec, start, end_, h2]
    exact ⟨trivial, trivial, h3, by omega⟩

/-- A program raises in the debugger as it does by itself. -/
theorem c74_raises (p : Prog) : ∀ s : State, (exec p s).2 = (texts p).2 := by
  induction p with
  | skip => intro s; rfl
  | write t => intro s; rfl
  | raise => intro s; rfl
  | seq a b iha ihb =>
    intro s
    have ha := iha s
    simp only [exec, texts]
    cases hx : exec a s with
    | mk s' r =>
      rw [hx] at ha
      cases ht : texts a with
      | mk x q =>
        rw [ht] at ha
        simp only at ha
        subst ha
        cases r
        · exact ihb s'
        · rfl
  | repl p ih =>
    intro s
    simp only [exec, texts, redirect]
    cases s.holder <;> exact ih _
  | buffered i p ih => intro s; exact ih _

/-- The stream in use sends to the client once, or not at all, as the redirection to the client is
in place or not; and to the program's own stream once. -/
def Good (s : State) : Prop :=
  s.std.count .own = 1 ∧ s.std.count .client = if s.holder.isSome then 1 else 0

/-- What a program adds to a sink, given how often the stream in use passes texts to that sink. -/
private theorem own_exec (p : Prog) : ∀ s : State, s.std.count .own = 1 →
    (exec p s).1.log.own = s.log.own ++ (texts p).1 := by
  induction p with
  | skip => intro s _; simp [exec, texts]
  | write t => intro s h; simp [exec, texts, write_own, h]
  | raise => intro s _; simp [exec, texts]
  | seq a b iha ihb =>
    intro s h
    have ha := iha s h
    have hr := c74_raises a s
    have hs := c74_restored a s
    simp only [exec, texts]
    cases hx : exec a s with
    | mk s' r =>
      rw [hx] at ha hr hs
      cases ht : texts a with
      | mk x q =>
        rw [ht] at ha hr
        simp only at ha hr hs
        subst hr
        cases r
        · have hb := ihb s' (by rw [hs.1]; exact h)
          simp [hb, ha]
        · exact ha
  | repl p ih =>
    intro s h
    simp only [exec, texts, redirect]
    cases hh : s.holder with
    | some i => exact ih s h
    | none =>
      have hlog : ∀ x : State, (stop x).log = x.log := by
        intro x
        unfold stop
        split <;> rfl
      simp only [start, List.head?_cons, hlog]
      exact ih _ (by simp [Stream.count, h])
  | buffered i p ih =>
    intro s h
    have hlog : ∀ x : State, (end_ x).log = x.log := by
      intro x
      unfold end_
      split <;> rfl
    simp only [exec, texts, hlog]
    exact ih (start s (.buffer i)) (by simp [start, Stream.count, h])

/-- **Every text reaches the program's own stream, once and in order**, whatever is redirected. -/
theorem c74_own (p : Prog) (s : State) (h : Good s) :
    (exec p s).1.log.own = s.log.own ++ (texts p).1 := own_exec p s h.1

private theorem client_exec (p : Prog) : ∀ s : State, Good s →
    (exec p s).1.log.client =
      s.log.client ++ (shown s.holder.isSome p).filter (· ≠ "") := by
  induction p with
  | skip => intro s _; unfold shown; split <;> simp [exec, texts]
  | raise => intro s _; unfold shown; split <;> simp [exec, texts]
  | write t =>
    intro s h
    simp only [exec, write_client, h.2]
    unfold shown
    cases hh : s.holder.isSome <;> simp [texts]
  | seq a b iha ihb =>
    intro s h
    have ha := iha s h
    have hr := c74_raises a s
    have hs := c74_restored a s
    have hg : Good (exec a s).1 := by
      unfold Good
      rw [hs.1, hs.2.2.1]
      exact h
    have hb := ihb (exec a s).1 hg
    rw [hs.2.2.1] at hb
    have hsh : ∀ on q, shown on q = if on then (texts q).1 else shown false q := by
      intro on q
      cases on
      · simp
      · unfold shown; simp
    rw [hsh] at ha hb
    rw [hsh s.holder.isSome (.seq a b)]
    simp only [exec]
    cases hx : exec a s with
    | mk s' r =>
      rw [hx] at ha hr hb
      cases ht : texts a with
      | mk x q =>
        rw [ht] at ha hr
        simp only at ha hr hb
        subst hr
        have hfs : shown false (.seq a b) =
            if r then shown false a else shown false a ++ shown false b := by
          conv => lhs; unfold shown
          simp [ht]
        cases r
        · simp only [hb, ha, hfs, texts, ht]
          cases s.holder.isSome <;> simp
        · simp only [ha, hfs, texts, ht]
          cases s.holder.isSome <;> simp
  | repl p ih =>
    intro s h
    simp only [exec, redirect]
    cases hh : s.holder with
    | some i =>
      have := ih s h
      rw [hh] at this
      simp only [this]
      unfold shown
      simp [texts]
    | none =>
      have hlog : ∀ x : State, (stop x).log = x.log := by
        intro x
        unfold stop
        split <;> rfl
      have h0 := h.2
      rw [hh] at h0
      simp only [start, List.head?_cons, hlog]
      have := ih { s with
        std := Stream.redirector s.fresh s.std .client
        stack := ⟨s.std, Stream.redirector s.fresh s.std .client⟩ :: s.stack
        holder := some ⟨s.std, Stream.redirector s.fresh s.std .client⟩
        fresh := s.fresh + 1 } ⟨by simp [Stream.count, h.1], by
          simp only [Stream.count, Option.isSome_some, if_true, h0]
          simp⟩
      simp only [Option.isSome_some] at this
      rw [this]
      unfold shown
      simp
  | buffered i p ih =>
    intro s h
    have hlog : ∀ x : State, (end_ x).log = x.log := by
      intro x
      unfold end_
      split <;> rfl
    have hst : (start s (.buffer i)).holder = s.holder := rfl
    have := ih (start s (.buffer i)) ⟨by simp [start, Stream.count, h.1], by
      rw [hst, ← h.2]
      simp [start, Stream.count]⟩
    simp only [exec, hlog, this, hst]
    have hl : (start s (.buffer i)).log = s.log := rfl
    rw [hl]
    conv => rhs; unfold shown
    cases s.holder.isSome
    · simp
    · unfold shown
      simp [texts]

/-- **The client gets every text written while output goes to it, once and in order**: all texts if
it went there from the start, those written in the repl otherwise — however the repl, tests and other
evaluations are nested, no text comes twice. Empty texts are not sent. -/
theorem c74_client (p : Prog) (s : State) (h : Good s) :
    (exec p s).1.log.client = s.log.client ++ (shown s.holder.isSome p).filter (· ≠ "") :=
  client_exec p s h

private theorem buffer_exec (i : Nat) (p : Prog) : ∀ s : State, usesBuffer i p = false →
    s.std.count (.buffer i) = 1 →
    (exec p s).1.log.buffer i = s.log.buffer i ++ (texts p).1 := by
  induction p with
  | skip => intro s _ _; simp [exec, texts]
  | write t => intro s _ h; simp [exec, texts, write_buffer, h]
  | raise => intro s _ _; simp [exec, texts]
  | seq a b iha ihb =>
    intro s hu h
    simp only [usesBuffer, Bool.or_eq_false_iff] at hu
    have ha := iha s hu.1 h
    have hr := c74_raises a s
    have hs := c74_restored a s
    simp only [exec, texts]
    cases hx : exec a s with
    | mk s' r =>
      rw [hx] at ha hr hs
      cases ht : texts a with
      | mk x q =>
        rw [ht] at ha hr
        simp only at ha hr hs
        subst hr
        cases r
        · have hb := ihb s' hu.2 (by rw [hs.1]; exact h)
          simp [hb, ha]
        · exact ha
  | repl p ih =>
    intro s hu h
    simp only [exec, texts, redirect]
    cases hh : s.holder with
    | some _ => exact ih s hu h
    | none =>
      have hlog : ∀ x : State, (stop x).log = x.log := by
        intro x
        unfold stop
        split <;> rfl
      simp only [start, List.head?_cons, hlog]
      exact ih _ hu (by simp [Stream.count, h])
  | buffered j p ih =>
    intro s hu h
    simp only [usesBuffer, Bool.or_eq_false_iff, beq_eq_false_iff_ne, ne_eq] at hu
    have hlog : ∀ x : State, (end_ x).log = x.log := by
      intro x
      unfold end_
      split <;> rfl
    simp only [exec, texts, hlog]
    refine ih (start s (.buffer j)) hu.2 ?_
    have : Sink.buffer i ≠ .buffer j := fun e => hu.1 (by cases e; rfl)
    simp [start, Stream.count, h, this]

/-- The stream below the redirections. -/
def Stream.base : Stream → Stream
  | .redirector _ o _ => o.base
  | s => s

theorem write_other (t : String) (n : Nat) : ∀ (s : Stream) (l : Log),
    (s.write t l).other n = l.other n ++ if s.base = .other n then [t] else []
  | .own, l => by simp [Stream.write, Log.add, Stream.base]
  | .other m, l => by
    by_cases h : n = m
    · subst h; simp [Stream.write, Stream.base]
    · have h' : m ≠ n := fun e => h e.symm
      simp [Stream.write, Stream.base, h, h']
  | .redirector i o k, l => by
    have ih := write_other t n o l
    rw [show (Stream.redirector i o k).base = o.base from rfl, ← ih]
    cases k with
    | own => rfl
    | client =>
      simp only [Stream.write, Log.add]
      split <;> rfl
    | buffer j => rfl

/-- **A stream the program put in place before gets every text, once and in order, and no other stream of the program does.** -/
theorem c74_other (n : Nat) (p : Prog) : ∀ s : State,
    (exec p s).1.log.other n = s.log.other n ++ if s.std.base = .other n then (texts p).1 else [] := by
  have hend : ∀ x : State, (end_ x).log = x.log := by intro x; unfold end_; split <;> rfl
  have hstop : ∀ x : State, (stop x).log = x.log := by intro x; unfold stop; split <;> rfl
  induction p with
  | skip => intro s; simp [exec, texts]
  | write t => intro s; simp [exec, texts, write_other]
  | raise => intro s; simp [exec, texts]
  | seq a b iha ihb =>
    intro s
    have ha := iha s
    have hr := c74_raises a s
    have hst := (c74_restored a s).1
    simp only [exec, texts]
    cases hx : exec a s with
    | mk s' r =>
      rw [hx] at ha hr hst
      simp only at ha hr hst
      cases ht : texts a with
      | mk x r' =>
        rw [ht] at ha hr
        simp only at hr ha
        subst hr
        cases r with
        | true => simpa using ha
        | false =>
          simp only
          rw [ihb s', hst, ha]
          split <;> simp
  | repl p ih =>
    intro s
    simp only [exec, texts]
    unfold redirect
    cases hh : s.holder with
    | some i => simpa using ih s
    | none =>
      simp only [hstop]
      rw [ih]
      simp [start, Stream.base]
  | buffered i p ih =>
    intro s
    simp only [exec, texts, hend]
    rw [ih]
    simp [start, Stream.base]

/-- **A test's buffer gets exactly what is written in the test.** -/
theorem c74_buffer (i : Nat) (p : Prog) (s : State) (hu : usesBuffer i p = false)
    (hs : s.std.count (.buffer i) = 0) :
    (exec (.buffered i p) s).1.log.buffer i = s.log.buffer i ++ (texts p).1 := by
  have hlog : ∀ x : State, (end_ x).log = x.log := by
    intro x
    unfold end_
    split <;> rfl
  simp only [exec, hlog]
  exact buffer_exec i p (start s (.buffer i)) hu (by simp [start, Stream.count, hs])

/-- **A stream the program puts in place during an evaluation in the repl stays**: the debugger puts
back the old one only if its own is still there. -/
theorem c74_program_stream_kept (s : State) (n : Nat) (hh : s.holder = none) :
    (stop { (redirect s).1 with std := .other n }).std = .other n ∧
      (stop (redirect s).1).std = s.std := by
  simp [redirect, hh, start, stop]

/-- The state before the program runs. -/
def State.begin : State := ⟨.own, [], none, ⟨[], [], fun _ => [], fun _ => []⟩, 0⟩

theorem begin_good : Good .begin := ⟨rfl, rfl⟩

/-- A test which prints, with an evaluation in the repl inside which itself evaluates in the repl. -/
theorem c74_example :
    let p := Prog.seq (.write "a")
      (.buffered 3 (.seq (.write "b") (.seq (.repl (.seq (.write "c") (.repl (.write "d")))) (.write "e"))))
    let s := (exec p .begin).1
    s.log.own = ["a", "b", "c", "d", "e"] ∧ s.log.client = ["c", "d"] ∧
      s.log.buffer 3 = ["b", "c", "d", "e"] ∧ s.std = .own := by decide +kernel

/-- Redirections which are not nested: output begins to go to the client while a test's output is
caught. When the test ends the redirection to the client is taken for the test's: the client gets
nothing more, and as the debugger believes it is in place it is never put back. -/
theorem c74_not_nested_witness :
    let s := end_ (redirect (start .begin (.buffer 3))).1
    s.holder.isSome = true ∧ s.std.count .client = 0 ∧ s.std.count (.buffer 3) = 1 ∧
      (redirect s).2 = false := by decide +kernel

/-! ## The buffer -/

/-- A text can be lost by a thread which writes while another takes the buffer's contents: it is
appended to a list nobody will read. -/
theorem c74_buffer_race_witness :
    let b := [BufAct.load "x", .take, .replace, .join, .append].foldl bufStep Buf.empty
    b.gone = ["x"] ∧ b.got = [] ∧ b.lists b.current = [] := by decide +kernel

/-- What happens when each write is not interrupted: a text is written, or the reader makes a step. -/
inductive BufOp where
  | write (t : String)
  | take
  | replace
  | join
deriving DecidableEq, Repr

def BufOp.acts : BufOp → List BufAct
  | .write t => [.load t, .append]
  | .take => [.take]
  | .replace => [.replace]
  | .join => [.join]

/-- What the reader has put aside and not joined. -/
def Buf.aside (b : Buf) : List String :=
  match b.reader with
  | some l => if l = b.current then [] else b.lists l
  | none => []

structure BufInv (b : Buf) : Prop where
  idle : b.writer = none
  lt : b.current < b.next
  reader : ∀ l, b.reader = some l → l ≤ b.current
  empty : ∀ j, b.current < j → b.lists j = []
  all : b.got ++ b.aside ++ b.lists b.current = b.gone

theorem bufInv_op {b : Buf} (h : BufInv b) (o : BufOp) : BufInv (o.acts.foldl bufStep b) := by
  obtain ⟨h1, h2, h3, h4, h5⟩ := h
  cases o with
  | write t =>
    simp only [BufOp.acts, List.foldl_cons, List.foldl_nil, bufStep, h1]
    refine ⟨rfl, h2, h3, ?_, ?_⟩
    · intro j hj
      simp only at hj ⊢
      rw [if_neg (by omega), h4 j hj]
    · simp only [Buf.aside, if_true, ← h5]
      cases hr : b.reader with
      | none => simp
      | some l => by_cases hl : l = b.current <;> simp [hl]
  | take =>
    simp only [BufOp.acts, List.foldl_cons, List.foldl_nil, bufStep]
    cases hr : b.reader with
    | some l => exact ⟨h1, h2, h3, h4, h5⟩
    | none =>
      refine ⟨h1, h2, ?_, h4, ?_⟩
      · intro l hl
        injection hl with hl
        exact Nat.le_of_eq hl.symm
      · rw [← h5]; simp [Buf.aside, hr]
  | replace =>
    simp only [BufOp.acts, List.foldl_cons, List.foldl_nil, bufStep]
    cases hr : b.reader with
    | none => exact ⟨h1, h2, h3, h4, h5⟩
    | some l =>
      simp only [Option.some.injEq]
      split
      · rename_i hl
        subst hl
        refine ⟨h1, by simp, ?_, ?_, ?_⟩
        · intro l' hl'
          have := h3 l' (hr.trans (by simpa using hl'))
          exact Nat.le_of_lt (Nat.lt_of_le_of_lt this h2)
        · intro j hj
          simp only at hj ⊢
          exact h4 j (by omega)
        · rw [← h5]
          have := h4 b.next h2
          simp [Buf.aside, hr, this, show b.current ≠ b.next by omega]
      · exact ⟨h1, h2, h3, h4, h5⟩
  | join =>
    simp only [BufOp.acts, List.foldl_cons, List.foldl_nil, bufStep]
    cases hr : b.reader with
    | none => exact ⟨h1, h2, h3, h4, h5⟩
    | some l =>
      simp only
      split
      · rename_i hl
        refine ⟨h1, h2, by simp, ?_, ?_⟩
        · intro j hj
          simp only at hj ⊢
          split
          · rfl
          · exact h4 j hj
        · rw [← h5]
          simp [Buf.aside, hr, hl, Ne.symm hl]
      · exact ⟨h1, h2, h3, h4, h5⟩

theorem bufInv_run (os : List BufOp) : ∀ b, BufInv b → BufInv ((os.flatMap BufOp.acts).foldl bufStep b) := by
  induction os with
  | nil => intro b h; exact h
  | cons o os ih => intro b h; rw [List.flatMap_cons, List.foldl_append]; exact ih _ (bufInv_op h o)

theorem bufInv_empty : BufInv Buf.empty := ⟨rfl, by decide, by simp [Buf.empty], by simp [Buf.empty], rfl⟩

/-- The texts written. -/
def written (os : List BufOp) : List String := os.filterMap fun o => match o with | .write t => some t | _ => none

theorem gone_run (os : List BufOp) : ∀ b, BufInv b → ((os.flatMap BufOp.acts).foldl bufStep b).gone = b.gone ++ written os := by
  induction os with
  | nil => intro b _; simp [written]
  | cons o os ih =>
    intro b h
    rw [List.flatMap_cons, List.foldl_append, ih _ (bufInv_op h o)]
    cases o with
    | write t => simp [BufOp.acts, bufStep, h.idle, written]
    | take =>
      simp only [BufOp.acts, List.foldl_cons, List.foldl_nil, bufStep, written, List.filterMap_cons]
      split <;> rfl
    | replace =>
      simp only [BufOp.acts, List.foldl_cons, List.foldl_nil, bufStep, written, List.filterMap_cons]
      split
      · split <;> rfl
      · rfl
    | join =>
      simp only [BufOp.acts, List.foldl_cons, List.foldl_nil, bufStep, written, List.filterMap_cons]
      split
      · split <;> rfl
      · rfl

/-- The steps of a reader which ends the read under way, then reads again. -/
def readAll : List BufOp := [.replace, .join, .take, .replace, .join]

/-- **When no write is interrupted by a reader, no text is lost**: the reader always got an initial part of the texts written, in order,
and gets the rest with its next read. -/
theorem c74_buffer_whole (os : List BufOp) :
    ((os.flatMap BufOp.acts).foldl bufStep Buf.empty).got <+: written os ∧
    (((os ++ readAll).flatMap BufOp.acts).foldl bufStep Buf.empty).got = written os := by
  have hi := bufInv_run os _ bufInv_empty
  have hg := gone_run os _ bufInv_empty
  have hg : ((os.flatMap BufOp.acts).foldl bufStep Buf.empty).gone = written os := by rw [hg]; rfl
  rw [List.flatMap_append, List.foldl_append]
  generalize (os.flatMap BufOp.acts).foldl bufStep Buf.empty = b at *
  rw [← hg, ← hi.all]
  refine ⟨⟨_, (List.append_assoc ..).symm⟩, ?_⟩
  have h4 := hi.empty b.next hi.lt
  have hne : b.current ≠ b.next := Nat.ne_of_lt hi.lt
  cases hr : b.reader with
  | none => simp [readAll, BufOp.acts, bufStep, hr, Buf.aside, hne]
  | some l =>
    by_cases hl : l = b.current
    · subst hl
      simp [readAll, BufOp.acts, bufStep, hr, Buf.aside, hne, h4]
    · simp [readAll, BufOp.acts, bufStep, hr, Buf.aside, hne, hl, Ne.symm hl]

example : (([BufOp.write "a", .take, .write "b", .replace, .write "c", .join].flatMap BufOp.acts).foldl bufStep Buf.empty).got = ["a", "b"] := by
  decide +kernel

end Redirect
