import Verif.Startup.Steps
/-!
# C98: what starting and waiting lead to

The theorems of `Props` say what must have happened when a call returns.  Here: that calls do return, that a lock
is not kept, what happens to a call which cannot be served, and when user code runs.
-/
namespace Startup.Spec
open Startup

/-- The debugger `d` is in use: created, and not disposed of. -/
def InUse (h : List Ev) (d : Nat) : Prop := (∃ t a, Ev.made t d a ∈ h) ∧ Ev.disposed d ∉ h

/-- The port of the event, if it creates a debugger. -/
def portOf : Ev → Option Nat
  | .made _ _ a => some a.port
  | _ => none

/-- The port in use: that of the first debugger. -/
def port (h : List Ev) : Option Nat := h.findSome? portOf

/-- User code has got control. -/
def Runs (h : List Ev) : Prop := ∃ t d a, Ev.returned t d a ∈ h

/-- Only user code can bring this about. -/
def ByUser : Ev → Prop
  | .disposed _ => True
  | .raised _ _ => True
  | .attached _ _ _ => True
  | _ => False

end Startup.Spec

namespace Startup
open Spec

/-- The second invariant: who has the lock, the debugger in use and its port. -/
structure Inv2 (s : St) : Prop where
  lock : ∀ t, s.lock = some t → holds (s.pc t) = true ∧ s.user = true
  glob : ∀ d, s.glob = some d ↔ InUse s.hist d
  old : ∀ d, Ev.disposed d ∈ s.hist → d < s.next
  setup : s.setup = port s.hist

theorem port_quiet {h e : List Ev} (q : ∀ x ∈ e, portOf x = none) : port (h ++ e) = port h := by
  unfold port
  rw [List.findSome?_append]
  have : e.findSome? portOf = none := by
    rw [List.findSome?_eq_none_iff]; exact q
  rw [this]; simp

theorem inUse_quiet {h e : List Ev} {d : Nat} (q : ∀ x ∈ e, portOf x = none) (q' : Ev.disposed d ∉ e) :
    InUse (h ++ e) d ↔ InUse h d := by
  unfold InUse
  constructor
  · rintro ⟨⟨t, a, h1⟩, h2⟩
    refine ⟨⟨t, a, ?_⟩, fun x => h2 (List.mem_append_left _ x)⟩
    rcases List.mem_append.1 h1 with h1 | h1
    · exact h1
    · have := q _ h1; simp [portOf] at this
  · rintro ⟨⟨t, a, h1⟩, h2⟩
    refine ⟨⟨t, a, List.mem_append_left _ h1⟩, fun x => ?_⟩
    rcases List.mem_append.1 x with x | x
    · exact h2 x
    · exact q' x

/-- A step which neither creates nor disposes of a debugger. -/
theorem inv2_frame {s s' : St} {e : List Ev} (j : Inv2 s) (hh : s'.hist = s.hist ++ e)
    (q : ∀ x ∈ e, portOf x = none) (q' : ∀ d, Ev.disposed d ∉ e) (hg : s'.glob = s.glob)
    (hn : s'.next = s.next) (hs : s'.setup = s.setup) (hl : ∀ t, s'.lock = some t → holds (s'.pc t) = true ∧ s'.user = true) :
    Inv2 s' where
  lock := hl
  glob := fun d => by rw [hh, hg, j.glob d, inUse_quiet q (q' d)]
  old := fun d h => by
    rw [hh] at h
    rcases List.mem_append.1 h with h | h
    · rw [hn]; exact j.old d h
    · exact absurd h (q' d)
  setup := by rw [hs, hh, port_quiet q, j.setup]

theorem lock_move {s : St} (j : Inv2 s) {t : Nat} {p : PC} (h : holds (s.pc t) = true → holds p = true) :
    ∀ t', s.lock = some t' → holds (upd s.pc t p t') = true ∧ s.user = true := by
  intro t' hl
  have := j.lock t' hl
  by_cases x : t' = t
  · subst x; rw [upd_self]; exact ⟨h this.1, this.2⟩
  · rw [upd_other _ _ x]; exact this

/-- While a script is launched nobody has the lock. -/
theorem lock_script {s : St} (i : Inv s) (j : Inv2 s) {t t' : Nat} {a : Args} (h : args (s.pc t) = some a)
    (ha : a.script = true) : s.lock ≠ some t' := by
  intro hl
  have := (i.side t).1 (j.lock t' hl).2 a h
  rw [ha] at this; cases this

theorem inv2_step {s : St} (i : Inv s) (j : Inv2 s) (x : Act) : Inv2 (step s x) := by
  cases x with
  | call t a =>
    simp only [step, call]
    split
    · rename_i h
      have h0 : s.pc t = .idle := by simp at h; exact h.1.2
      split
      · exact inv2_frame j rfl (by simp [portOf]) (by simp) rfl rfl rfl j.lock
      · exact inv2_frame (e := []) j (by simp) (by simp) (by simp) rfl rfl rfl
          (lock_move j (by rw [h0]; simp [holds]))
    · exact j
  | acquire t =>
    simp only [step, acquire]
    split
    · split
      · refine inv2_frame (e := []) j (by simp) (by simp) (by simp) rfl rfl rfl ?_
        intro t' h
        simp only [Option.some.injEq] at h
        subst h
        refine ⟨by simp [upd_self, holds], ?_⟩
        rename_i a ha _
        exact user_of (s := s) (t := t) i (by rw [ha]; simp) (by rw [ha]; rfl)
      · exact j
    · exact j
  | enter t =>
    simp only [step, enter]
    split
    · rename_i a ha
      split
      · exact inv2_frame (e := []) j (by simp) (by simp) (by simp) rfl rfl rfl (lock_move j (fun _ => rfl))
      · rename_i hg
        have fresh : ∀ t d a, Ev.made t d a ∈ s.hist → d < s.next := fun t d a h => (i.made t d a h).1
        refine ⟨lock_move j (fun _ => rfl), ?_, ?_, ?_⟩
        · intro d
          simp only [Option.some.injEq]
          constructor
          · intro h; subst h
            refine ⟨⟨t, a, by simp⟩, ?_⟩
            intro h
            simp only [List.mem_append, List.mem_singleton, reduceCtorEq, or_false] at h
            have := j.old _ h
            omega
          · rintro ⟨⟨t', a', h1⟩, h2⟩
            simp only [List.mem_append, List.mem_singleton, reduceCtorEq, or_false] at h1 h2
            rcases h1 with h1 | h1
            · exfalso
              have := (j.glob d).2 ⟨⟨t', a', h1⟩, h2⟩
              rw [hg] at this; cases this
            · cases h1; rfl
        · intro d h
          simp only [List.mem_append, List.mem_singleton, reduceCtorEq, or_false] at h
          have := j.old d h
          show d < s.next + 1
          omega
        · show some (s.setup.getD a.port) = port (s.hist ++ [Ev.made t s.next a])
          unfold port
          rw [List.findSome?_append]
          have h1 : s.setup = s.hist.findSome? portOf := j.setup
          rw [← h1]
          cases s.setup <;> simp [portOf]
    · exact j
  | connect t ok =>
    simp only [step, connect]
    split
    · rename_i a d ha
      split
      · split
        · exact inv2_frame (e := [.attempt d true]) j (by simp) (by simp [portOf]) (by simp) rfl rfl rfl
            (lock_move j (fun _ => rfl))
        · split
          · rename_i hscript
            refine inv2_frame (e := [.attempt d false, .exited]) j (by simp) (by simp [portOf]) (by simp) rfl rfl rfl ?_
            exact fun t' h => absurd h (lock_script i j (by rw [ha]; rfl) hscript)
          · exact inv2_frame j rfl (by simp [portOf]) (by simp) rfl rfl rfl (by simp)
      · exact inv2_frame (e := []) j (by simp) (by simp) (by simp) rfl rfl rfl (lock_move j (fun _ => rfl))
    · exact j
  | setReady t =>
    simp only [step, setReady]
    split
    · exact inv2_frame (e := []) j (by simp) (by simp) (by simp) rfl rfl rfl (lock_move j (fun _ => rfl))
    · exact j
  | poll t =>
    simp only [step, poll]
    split
    · split
      · exact inv2_frame (e := []) j (by simp) (by simp) (by simp) rfl rfl rfl (lock_move j (fun _ => rfl))
      · exact j
    · exact j
  | finish t =>
    simp only [step, finish]
    split
    · rename_i a d ha
      split
      · rename_i hscript
        exact inv2_frame j rfl (by simp [portOf]) (by simp) rfl rfl rfl
          (fun t' h => absurd h (lock_script i j (by rw [ha]; rfl) hscript))
      · split
        · exact inv2_frame (e := []) j (by simp) (by simp) (by simp) rfl rfl rfl (by simp)
        · exact inv2_frame j rfl (by simp [portOf]) (by simp) rfl rfl rfl (by simp)
    · exact j
  | reread t =>
    simp only [step, reread]
    split
    · rename_i a ha
      split
      · exact inv2_frame (e := []) j (by simp) (by simp) (by simp) rfl rfl rfl (lock_move j (by simp [ha, holds]))
      · exact inv2_frame j rfl (by simp [portOf]) (by simp) rfl rfl rfl (lock_move j (by simp [ha, holds]))
    · exact j
  | socketReady t =>
    simp only [step, socketReady]
    split
    · rename_i a d ha
      split
      · exact inv2_frame j rfl (by simp [portOf]) (by simp) rfl rfl rfl (lock_move j (by simp [ha, holds]))
      · exact j
    · exact j
  | listen d ok =>
    simp only [step, listen]
    split
    · split
      · exact inv2_frame j rfl (by simp [portOf]) (by simp) rfl rfl rfl j.lock
      · exact inv2_frame (e := []) j (by simp) (by simp) (by simp) rfl rfl rfl j.lock
    · exact j
  | accept d =>
    simp only [step, accept]
    split
    · split
      · exact inv2_frame j rfl (by simp [portOf]) (by simp) rfl rfl rfl j.lock
      · exact inv2_frame (e := []) j (by simp) (by simp) (by simp) rfl rfl rfl j.lock
    · exact j
  | network d =>
    simp only [step, swap]
    split
    · exact inv2_frame (e := []) j (by simp [network]) (by simp) (by simp) rfl rfl rfl j.lock
    · exact j
  | handle c r =>
    simp only [step, handle]
    split
    · exact inv2_frame j rfl (by simp [portOf]) (by simp) rfl rfl rfl j.lock
    · exact j
  | stop t =>
    simp only [step, stop]
    split
    · split
      · rename_i d hd
        refine ⟨j.lock, ?_, ?_, ?_⟩
        · intro d'
          simp only [reduceCtorEq, false_iff]
          rintro ⟨⟨t', a', h1⟩, h2⟩
          simp only [List.mem_append, List.mem_singleton, reduceCtorEq, or_false, Ev.disposed.injEq, not_or] at h1 h2
          have := (j.glob d').2 ⟨⟨t', a', h1⟩, h2.1⟩
          rw [hd] at this
          simp only [Option.some.injEq] at this
          exact h2.2 this.symm
        · intro d' h
          simp only [List.mem_append, List.mem_singleton, Ev.disposed.injEq] at h
          rcases h with h | h
          · exact j.old d' h
          · subst h
            obtain ⟨⟨t', a', h1⟩, _⟩ := (j.glob d').1 hd
            exact (i.made t' d' a' h1).1
        · show s.setup = _
          rw [port_quiet (by simp [portOf]), j.setup]
      · exact j
    · exact j
  | waitAttach t c =>
    simp only [step, waitAttach]
    split
    · rename_i h
      have h0 : s.pc t = .idle := by simp at h; exact h.2
      split
      · exact inv2_frame (e := []) j (by simp) (by simp) (by simp) rfl rfl rfl
          (lock_move j (by rw [h0]; simp [holds]))
      · exact inv2_frame j rfl (by simp [portOf]) (by simp) rfl rfl rfl j.lock
    · exact j
  | cancelWait e => exact inv2_frame j rfl (by simp [portOf]) (by simp) rfl rfl rfl j.lock
  | pollAttach t =>
    simp only [step, pollAttach]
    split
    · rename_i d c ha
      split
      · exact inv2_frame j rfl (by simp [portOf]) (by simp) rfl rfl rfl (lock_move j (by simp [ha, holds]))
      · split
        · exact inv2_frame j rfl (by simp [portOf]) (by simp) rfl rfl rfl (lock_move j (by simp [ha, holds]))
        · exact j
    · exact j

theorem inv2_exec {s : St} (i : Inv s) (j : Inv2 s) (acts : List Act) : Inv2 (exec s acts) := by
  induction acts generalizing s with
  | nil => exact j
  | cons a r ih => exact ih (inv_step i a) (inv2_step i j a)

theorem inv2_program : Inv2 program where
  lock := by simp [program]
  glob := by simp [program, InUse]
  old := by simp [program]
  setup := rfl

theorem inv2_script (p : Nat) : Inv2 (script p) where
  lock := by simp [script]
  glob := by
    intro d
    simp only [script, InUse, Option.some.injEq, List.mem_singleton, Ev.made.injEq, reduceCtorEq, not_false_eq_true,
      and_true]
    constructor
    · rintro rfl; exact ⟨0, _, rfl, rfl, rfl⟩
    · rintro ⟨_, _, _, h, _⟩; exact h.symm
  old := by simp [script]
  setup := rfl

theorem inv2_reachable {s : St} (h : Reachable s) : Inv2 s := by
  obtain ⟨acts, h | ⟨port, h⟩⟩ := h
  · rw [h]; exact inv2_exec inv_program inv2_program acts
  · rw [h]; exact inv2_exec (inv_script port) (inv2_script port) acts

/-! ### When user code runs -/

theorem runs_mono {h : List Ev} (x : Runs h) (e : List Ev) : Runs (h ++ e) := by
  obtain ⟨t, d, a, h1⟩ := x
  exact ⟨t, d, a, List.mem_append_left _ h1⟩

/-- In a process which launches a script: user code runs exactly when the launch is over. -/
structure UserInv (s : St) : Prop where
  runs : s.user = true ↔ Runs s.hist
  after : AllPre (fun pre e => ByUser e → Runs pre) s.hist

theorem userInv_frame {s s' : St} (u : UserInv s) (hu : s'.user = s.user) (hh : s'.hist = s.hist) : UserInv s' :=
  ⟨by rw [hu, hh]; exact u.runs, by rw [hh]; exact u.after⟩

theorem userInv_event {s s' : St} {e : Ev} (u : UserInv s) (hu : s'.user = s.user) (hh : s'.hist = s.hist ++ [e])
    (hr : ∀ t d a, e = .returned t d a → s.user = true) (hb : ByUser e → s.user = true) : UserInv s' := by
  refine ⟨?_, ?_⟩
  · rw [hu, hh, u.runs]
    refine ⟨fun x => runs_mono x _, ?_⟩
    rintro ⟨t, d, a, x⟩
    rcases List.mem_append.1 x with x | x
    · exact ⟨t, d, a, x⟩
    · simp only [List.mem_singleton] at x
      exact u.runs.1 (hr t d a x.symm)
  · rw [hh]
    exact allPre_snoc u.after (fun x => u.runs.1 (hb x))

theorem userInv_step {s : St} (i : Inv s) (u : UserInv s) (x : Act) : UserInv (step s x) := by
  cases x with
  | call t a =>
    simp only [step, call]
    split
    · rename_i h
      have h0 : s.user = true := by simp at h; exact h.1.1
      split
      · exact userInv_event u rfl rfl (by simp) (fun _ => h0)
      · exact userInv_frame u rfl rfl
    · exact u
  | acquire t =>
    simp only [step, acquire]
    split
    · split
      · exact userInv_frame u rfl rfl
      · exact u
    · exact u
  | enter t =>
    simp only [step, enter]
    split
    · split
      · exact userInv_frame u rfl rfl
      · exact userInv_event u rfl rfl (by simp) (by simp [ByUser])
    · exact u
  | connect t ok =>
    simp only [step, connect]
    split
    · rename_i a d ha
      split
      · split
        · exact userInv_event u rfl rfl (by simp) (by simp [ByUser])
        · split
          · have h1 : UserInv { s with hist := s.hist ++ [.attempt d false] } :=
              userInv_event u rfl rfl (by simp) (by simp [ByUser])
            exact userInv_event (e := .exited) h1 rfl (by simp) (by simp) (by simp [ByUser])
          · rename_i hs
            have h0 : s.user = true := by
              cases hu : s.user with
              | true => rfl
              | false =>
                rcases (i.side t).2 hu with h | ⟨_, b, h1, h2⟩
                · rw [ha] at h; cases h
                · rw [ha] at h1
                  simp only [args, Option.some.injEq] at h1
                  subst h1; exact absurd h2 hs
            have h1 : UserInv { s with hist := s.hist ++ [.attempt d false] } :=
              userInv_event u rfl rfl (by simp) (by simp [ByUser])
            exact userInv_event (e := .raised t a) h1 rfl (by simp) (by simp) (fun _ => h0)
      · exact userInv_frame u rfl rfl
    · exact u
  | setReady t =>
    simp only [step, setReady]
    split
    · exact userInv_frame u rfl rfl
    · exact u
  | poll t =>
    simp only [step, poll]
    split
    · split
      · exact userInv_frame u rfl rfl
      · exact u
    · exact u
  | finish t =>
    simp only [step, finish]
    split
    · rename_i a d ha
      split
      · refine ⟨?_, allPre_snoc u.after (by simp [ByUser])⟩
        simp only [true_iff]
        exact ⟨t, d, a, by simp⟩
      · rename_i hs
        have h0 : s.user = true := by
          cases hu : s.user with
          | true => rfl
          | false =>
            rcases (i.side t).2 hu with h | ⟨_, b, h1, h2⟩
            · rw [ha] at h; cases h
            · rw [ha] at h1
              simp only [args, Option.some.injEq] at h1
              subst h1; exact absurd h2 hs
        split
        · exact userInv_frame u rfl rfl
        · exact userInv_event u rfl rfl (fun _ _ _ _ => h0) (fun _ => h0)
    · exact u
  | reread t =>
    simp only [step, reread]
    split
    · rename_i a ha
      have h0 : s.user = true := user_of (t := t) i (by rw [ha]; simp) (by rw [ha]; rfl)
      split
      · exact userInv_frame u rfl rfl
      · exact userInv_event u rfl rfl (by simp) (fun _ => h0)
    · exact u
  | socketReady t =>
    simp only [step, socketReady]
    split
    · rename_i a d ha
      have h0 : s.user = true := user_of (t := t) i (by rw [ha]; simp) (by rw [ha]; rfl)
      split
      · exact userInv_event u rfl rfl (fun _ _ _ _ => h0) (fun _ => h0)
      · exact u
    · exact u
  | listen d ok =>
    simp only [step, listen]
    split
    · split
      · exact userInv_event u rfl rfl (by simp) (by simp [ByUser])
      · exact userInv_frame u rfl rfl
    · exact u
  | accept d =>
    simp only [step, accept]
    split
    · split
      · exact userInv_event u rfl rfl (by simp) (by simp [ByUser])
      · exact userInv_frame u rfl rfl
    · exact u
  | network d =>
    simp only [step, swap]
    split
    · exact userInv_frame u rfl rfl
    · exact u
  | handle c r =>
    simp only [step, handle]
    split
    · exact userInv_event u rfl rfl (by simp) (by simp [ByUser])
    · exact u
  | stop t =>
    simp only [step, stop]
    split
    · rename_i h
      have h0 : s.user = true := by simp at h; exact h.1
      split
      · exact userInv_event u rfl rfl (by simp) (fun _ => h0)
      · exact u
    · exact u
  | waitAttach t c =>
    simp only [step, waitAttach]
    split
    · rename_i h
      have h0 : s.user = true := by simp at h; exact h.1
      split
      · exact userInv_frame u rfl rfl
      · exact userInv_event u rfl rfl (by simp) (fun _ => h0)
    · exact u
  | cancelWait e => exact userInv_event u rfl rfl (by simp) (by simp [ByUser])
  | pollAttach t =>
    simp only [step, pollAttach]
    split
    · rename_i d c ha
      have h0 : s.user = true := user_of (t := t) i (by rw [ha]; simp) (by rw [ha]; rfl)
      split
      · exact userInv_event u rfl rfl (by simp) (fun _ => h0)
      · split
        · exact userInv_event u rfl rfl (by simp) (fun _ => h0)
        · exact u
    · exact u

theorem userInv_script (p : Nat) (acts : List Act) : UserInv (exec (script p) acts) := by
  have h0 : UserInv (script p) := by
    refine ⟨by simp [script, Runs], ?_⟩
    have := allPre_snoc (allPre_nil (fun pre e => ByUser e → Runs pre)) (e := Ev.made 0 0 (mainArgs p)) (by simp [ByUser])
    exact this
  have : ∀ (acts : List Act) (s : St), Inv s → UserInv s → UserInv (exec s acts) := by
    intro acts
    induction acts with
    | nil => intro s _ u; exact u
    | cons a r ih => intro s i u; exact ih _ (inv_step i a) (userInv_step i u a)
  exact this acts _ (inv_script p) h0

/-- An event that was set stays set. -/
def CancelInv (s : St) : Prop := ∀ n, CancelSet s.hist n → s.cancel n = true

theorem cancelSet_other {h e : List Ev} {n : Nat} (q : ∀ x ∈ e, quiet x = true ∨ (∃ d, x = .dropped d) ∨
    ∃ d c r b, x = .handled d c r b) (x : CancelSet (h ++ e) n) : CancelSet h n := by
  rcases x with x | ⟨t, d, x⟩
  · rcases List.mem_append.1 x with x | x
    · exact Or.inl x
    · rcases q _ x with y | ⟨_, y⟩ | ⟨_, _, _, _, y⟩ <;> simp [quiet] at y
  · rcases List.mem_append.1 x with x | x
    · exact Or.inr ⟨t, d, x⟩
    · rcases q _ x with y | ⟨_, y⟩ | ⟨_, _, _, _, y⟩ <;> simp [quiet] at y

theorem cancelInv_step {s : St} (k : CancelInv s) (x : Act) : CancelInv (step s x) := by
  cases x
  case cancelWait e =>
    intro n h
    simp only [step] at h ⊢
    rw [cancelSet_snoc] at h
    by_cases x : n = e
    · subst x; exact upd_self _ _ _
    · rw [upd_other _ _ x]
      rcases h with h | h | ⟨t, d, h⟩
      · exact k n h
      · simp only [Ev.cancelled.injEq] at h; exact absurd h.symm x
      · cases h
  case pollAttach t =>
    simp only [step, pollAttach]
    split
    · rename_i d c ha
      split
      · rename_i hset
        intro n h
        simp only at h ⊢
        rw [cancelSet_snoc] at h
        rcases h with h | h | ⟨t, d, h⟩
        · exact k n h
        · cases h
        · simp only [Ev.attached.injEq] at h
          obtain ⟨_, _, rfl⟩ := h
          exact hset
      · split
        · intro n h
          simp only at h ⊢
          rw [cancelSet_snoc] at h
          rcases h with h | h | ⟨t, d, h⟩
          · have := k n h
            cases c with
            | none => exact this
            | some e =>
              simp only [setCancel]
              by_cases x : n = e
              · subst x; exact upd_self _ _ _
              · rw [upd_other _ _ x]; exact this
          · cases h
          · simp only [Ev.attached.injEq] at h
            obtain ⟨_, _, rfl⟩ := h
            exact upd_self _ _ _
        · exact k
    · exact k
  all_goals
    simp only [step, call, acquire, enter, connect, setReady, poll, finish, reread, socketReady, listen, accept,
          swap, handle, stop, waitAttach, network]
    repeat' split
    all_goals first
      | exact k
      | (intro n h; exact k n (cancelSet_other (fun x hx => Or.inr (Or.inr ⟨_, _, _, _, List.mem_singleton.1 hx⟩)) h))
      | (intro n h; exact k n (cancelSet_other (by simp [quiet]) h))

theorem cancelInv_reachable {s : St} (h : Reachable s) : CancelInv s := by
  have : ∀ (acts : List Act) (s : St), CancelInv s → CancelInv (exec s acts) := by
    intro acts
    induction acts with
    | nil => intro s k; exact k
    | cons a r ih => intro s k; exact ih _ (cancelInv_step k a)
  obtain ⟨acts, h | ⟨port, h⟩⟩ := h
  · rw [h]; exact this acts _ (by simp [CancelInv, program, CancelSet])
  · rw [h]; exact this acts _ (by simp [CancelInv, script, CancelSet])

/-! ### The theorems -/

/-- **C98 (user code).**  When a script is launched, user code runs exactly when the launch has come to its end:
until then no call of user code is made, nothing is raised into it, and no debugger is disposed of.  A program
which uses pydevd itself runs all the time. -/
theorem c98_user_code (acts : List Act) :
    (∀ p, (exec (script p) acts).user = true ↔ Runs (exec (script p) acts).hist) ∧
    (∀ p pre e post, (exec (script p) acts).hist = pre ++ e :: post → ByUser e → Runs pre) ∧
    (exec program acts).user = true := by
  refine ⟨fun p => (userInv_script p acts).runs, fun p pre e post h => (userInv_script p acts).after pre e post h, ?_⟩
  have : ∀ (acts : List Act) (s : St), s.user = true → (exec s acts).user = true := by
    intro acts
    induction acts with
    | nil => intro s h; exact h
    | cons a r ih =>
      intro s h
      refine ih _ ?_
      cases a <;>
        simp only [step, call, acquire, enter, connect, setReady, poll, finish, reread, socketReady, listen, accept,
          swap, handle, stop, waitAttach, pollAttach] <;>
        repeat' split
      all_goals first | exact h | rfl
  exact this acts _ rfl

/-- **C98 (the lock).**  A thread keeps other threads from starting only while it is itself inside `settrace`:
when a call returns or raises, the lock is free. -/
theorem c98_lock {s : St} (hs : Reachable s) {t : Nat} (h : s.lock = some t) :
    ∃ a, s.pc t = .locked a ∨ ∃ d, s.pc t = .connecting a d ∨ s.pc t = .connected a d ∨ s.pc t = .polling a d ∨
      s.pc t = .tracing a d := by
  have := ((inv2_reachable hs).lock t h).1
  revert this
  cases s.pc t <;> simp [holds]

/-- **C98 (a call returns).**  A thread that waits for its client returns when the client has said that it is
ready: user code goes on, and other threads can start. -/
theorem c98_goes_on {s : St} (hs : Reachable s) {t d : Nat} {a : Args} (h : s.pc t = .polling a d)
    (hg : Go s.hist d) (ha : a.attach = false) :
    let s' := exec s [.poll t, .finish t]
    s'.hist = s.hist ++ [.returned t d a] ∧ s'.pc t = .idle ∧ s'.user = true ∧ s'.lock = none := by
  have hr := (inv_reachable hs).flags.ready d hg
  have hl : s.lock = some t ∨ s.lock = none ∧ a.script = true := by
    cases hu : s.user with
    | true => exact Or.inl ((inv_reachable hs).locked hu t (by rw [h]; rfl))
    | false =>
      refine Or.inr ⟨?_, ?_⟩
      · cases hl : s.lock with
        | none => rfl
        | some t' => have := ((inv2_reachable hs).lock t' hl).2; rw [hu] at this; cases this
      · rcases ((inv_reachable hs).side t).2 hu with h' | ⟨_, b, h1, h2⟩
        · rw [h] at h'; cases h'
        · rw [h] at h1; simp only [args, Option.some.injEq] at h1; subst h1; exact h2
  have hu : a.script = false → s.user = true := by
    intro hsc
    cases hu : s.user with
    | true => rfl
    | false =>
      rcases ((inv_reachable hs).side t).2 hu with h' | ⟨_, b, h1, h2⟩
      · rw [h] at h'; cases h'
      · rw [h] at h1; simp only [args, Option.some.injEq] at h1; subst h1; rw [hsc] at h2; cases h2
  have hn : a.script = true → s.lock = none := by
    intro hsc
    cases hl : s.lock with
    | none => rfl
    | some t' =>
      exact absurd hl (lock_script (inv_reachable hs) (inv2_reachable hs) (by rw [h]; rfl) hsc)
  cases hsc : a.script <;> simp [exec, step, poll, finish, h, hr, upd_self, hsc, ha, hu, hn]

/-- **C98 (the first call).**  A call which finds the lock free and no debugger in use creates one, and connects.
With `wait_for_ready_to_run=False` it returns at once; otherwise it waits. -/
theorem c98_first_call {s : St} (hs : Reachable s) {t : Nat} {a : Args} (h : s.pc t = .want a) (hl : s.lock = none)
    (hg : ∀ d, ¬ InUse s.hist d) (hb : a.block = true) (ha : a.attach = false) :
    ∃ d, (exec s [.acquire t, .enter t, .connect t true, .setReady t]).hist =
        s.hist ++ [.made t d a, .attempt d true] ∧
      (exec s [.acquire t, .enter t, .connect t true, .setReady t]).pc t = .polling a d ∧
      (a.wait = false → (exec s [.acquire t, .enter t, .connect t true, .setReady t, .poll t, .finish t]).hist =
        s.hist ++ [.made t d a, .attempt d true, .returned t d a]) := by
  have hgl : s.glob = none := by
    cases hx : s.glob with
    | none => rfl
    | some d => exact absurd (((inv2_reachable hs).glob d).1 hx) (hg d)
  have hu : s.user = true := user_of (t := t) (inv_reachable hs) (by rw [h]; simp) (by rw [h]; rfl)
  have hsc : a.script = false := ((inv_reachable hs).side t).1 hu a (by rw [h]; rfl)
  refine ⟨s.next, ?_, ?_, ?_⟩
  · simp [exec, step, acquire, enter, connect, setReady, network, h, hl, hgl, hb, upd_self]
  · simp [exec, step, acquire, enter, connect, setReady, network, h, hl, hgl, hb, upd_self]
  · intro hw
    simp [exec, step, acquire, enter, connect, setReady, network, poll, finish, h, hl, hgl, hb, hw, upd_self, hsc, ha]

/-- **C98 (later calls).**  A call which finds the lock free and a debugger in use returns at once with that one. -/
theorem c98_later_call {s : St} (hs : Reachable s) {t d : Nat} {a : Args} (h : s.pc t = .want a) (hl : s.lock = none)
    (hg : InUse s.hist d) (ha : a.attach = false) :
    let s' := exec s [.acquire t, .enter t, .finish t]
    s'.hist = s.hist ++ [.returned t d a] ∧ s'.pc t = .idle ∧ s'.lock = none := by
  have hgl : s.glob = some d := ((inv2_reachable hs).glob d).2 hg
  have hu : s.user = true := user_of (t := t) (inv_reachable hs) (by rw [h]; simp) (by rw [h]; rfl)
  have hsc : a.script = false := ((inv_reachable hs).side t).1 hu a (by rw [h]; rfl)
  simp [exec, step, acquire, enter, finish, h, hl, hgl, upd_self, hsc, ha]

/-- **C98 (connecting fails).**  The exception reaches the caller of `settrace`, with the lock free; a process
which launches a script ends, and the script never runs. -/
theorem c98_connect_fails {s : St} (hs : Reachable s) {t d : Nat} {a : Args} (h : s.pc t = .connecting a d)
    (hb : a.block = true) :
    (a.script = false → (step s (.connect t false)).hist = s.hist ++ [.attempt d false, .raised t a] ∧
      (step s (.connect t false)).lock = none ∧ (step s (.connect t false)).pc t = .idle) ∧
    (a.script = true → (step s (.connect t false)).hist = s.hist ++ [.attempt d false, .exited] ∧
      ∀ acts, (exec (step s (.connect t false)) acts).user = false) := by
  refine ⟨fun hsc => ?_, fun hsc => ⟨?_, ?_⟩⟩
  · simp [step, connect, h, hb, hsc, upd_self]
  · simp [step, connect, h, hb, hsc]
  · have hu : s.user = false := by
      cases hu : s.user with
      | false => rfl
      | true =>
        have := ((inv_reachable hs).side t).1 hu a (by rw [h]; rfl)
        rw [hsc] at this; cases this
    have hall : ∀ t', (step s (.connect t false)).pc t' = .idle := by
      intro t'
      simp only [step, connect, h, hb, hsc, if_true, Bool.false_eq_true, if_false]
      by_cases x : t' = t
      · subst x; exact upd_self _ _ _
      · rw [upd_other _ _ x]
        rcases ((inv_reachable hs).side t').2 hu with h' | ⟨h', _⟩
        · exact h'
        · have := (inv_reachable hs).one t' t (by revert h'; cases s.pc t' <;> simp [inside, holds]) (by rw [h]; rfl)
          exact absurd this x
    have hu' : (step s (.connect t false)).user = false := by simp [step, connect, h, hb, hsc, hu]
    generalize step s (.connect t false) = s' at hall hu'
    intro acts
    induction acts generalizing s' with
    | nil => exact hu'
    | cons x r ih =>
      have := ih (step s' x)
      refine this ?_ ?_
      · cases x <;>
          simp [step, call, acquire, enter, connect, setReady, poll, finish, reread, socketReady, listen, accept,
            swap, handle, stop, waitAttach, pollAttach, hall, hu', network] <;> (repeat' split) <;> exact hall
      · cases x <;>
          simp [step, call, acquire, enter, connect, setReady, poll, finish, reread, socketReady, listen, accept,
            swap, handle, stop, waitAttach, pollAttach, hall, hu', network] <;> (repeat' split) <;> first | exact hu' | rfl

/-- **C98 (another port).**  `_enable_attach` raises exactly when a debugger was created for another port; in
every other case the call goes on to wait for its turn. -/
theorem c98_port {s : St} (hs : Reachable s) {t : Nat} {a : Args} (hu : s.user = true) (h : s.pc t = .idle)
    (hsc : a.script = false) :
    (a.attach = true ∧ (∃ p, port s.hist = some p ∧ p ≠ a.port) →
      (step s (.call t a)).hist = s.hist ++ [.raised t a] ∧ (step s (.call t a)).pc t = .idle) ∧
    (a.attach = false ∨ (∀ p, port s.hist = some p → p = a.port) →
      (step s (.call t a)).hist = s.hist ∧ (step s (.call t a)).pc t = .want a) := by
  rw [← (inv2_reachable hs).setup]
  constructor
  · rintro ⟨h1, p, h2, h3⟩
    have : otherPort s.setup a.port = true := by simp [otherPort, h2, h3]
    simp [step, call, hu, h, hsc, h1, this]
  · rintro h1
    have : (a.attach && otherPort s.setup a.port) = false := by
      rcases h1 with h1 | h1
      · simp [h1]
      · cases hx : s.setup with
        | none => simp [otherPort]
        | some p => simp [otherPort, h1 p hx]
    simp [step, call, hu, h, hsc, this, upd_self]

/-- **C98 (`_enable_attach` returns).**  A call of `_enable_attach` which has set up the tracing returns when the
socket of the debugger in use is bound; when the debugger was disposed of meanwhile, it raises. -/
theorem c98_enable_attach_returns {s : St} (hs : Reachable s) {t : Nat} {a : Args} (h : s.pc t = .reread a) :
    (∀ d, InUse s.hist d → Ev.listening d ∈ s.hist →
      (exec s [.reread t, .socketReady t]).hist = s.hist ++ [.returned t d a] ∧
      (exec s [.reread t, .socketReady t]).pc t = .idle) ∧
    ((∀ d, ¬ InUse s.hist d) → (step s (.reread t)).hist = s.hist ++ [.raised t a] ∧
      (step s (.reread t)).pc t = .idle) := by
  constructor
  · intro d hd hl
    have hgl : s.glob = some d := ((inv2_reachable hs).glob d).2 hd
    simp [exec, step, reread, socketReady, h, hgl, upd_self, hl]
  · intro hd
    have hgl : s.glob = none := by
      cases hx : s.glob with
      | none => rfl
      | some d => exact absurd (((inv2_reachable hs).glob d).1 hx) (hd d)
    simp [step, reread, h, hgl, upd_self]

/-- **C98 (`stoptrace`).**  Called by user code it disposes of the debugger in use, and does nothing when there is
none; after it there is no debugger in use, so the next call of `settrace` creates a new one. -/
theorem c98_stop {s : St} (hs : Reachable s) {t : Nat} (hu : s.user = true) (h : s.pc t = .idle) :
    (∀ d, InUse s.hist d → (step s (.stop t)).hist = s.hist ++ [.disposed d]) ∧
    ((∀ d, ¬ InUse s.hist d) → step s (.stop t) = s) ∧
    (∀ d, ¬ InUse (step s (.stop t)).hist d) := by
  have hs' : Inv2 (step s (.stop t)) := inv2_step (inv_reachable hs) (inv2_reachable hs) _
  refine ⟨fun d hd => ?_, fun hd => ?_, fun d hd => ?_⟩
  · have hgl : s.glob = some d := ((inv2_reachable hs).glob d).2 hd
    simp [step, stop, hu, h, hgl]
  · have hgl : s.glob = none := by
      cases hx : s.glob with
      | none => rfl
      | some d => exact absurd (((inv2_reachable hs).glob d).1 hx) (hd d)
    simp [step, stop, hu, h, hgl]
  · have := (hs'.glob d).2 hd
    simp only [step, stop, hu, h, Bool.true_and, decide_true, if_true] at this
    split at this
    · cases this
    · rename_i hx; rw [hx] at this; cases this

/-- **C98 (waiting to be attached).**  `_wait_for_attach` raises exactly when no debugger is in use; a wait for the
debugger `d` returns as soon as a client is attached to it or the event is set, and then the event is set. -/
theorem c98_wait_returns {s : St} (hs : Reachable s) {t : Nat} :
    (∀ c, s.user = true → s.pc t = .idle →
      ((∀ d, ¬ InUse s.hist d) → ∃ a, (step s (.waitAttach t c)).hist = s.hist ++ [.raised t a] ∧
        (step s (.waitAttach t c)).pc t = .idle) ∧
      (∀ d, InUse s.hist d → (step s (.waitAttach t c)).hist = s.hist ∧
        (step s (.waitAttach t c)).pc t = .attaching d c)) ∧
    (∀ d c, s.pc t = .attaching d c → (Attached s.hist d ∨ ∃ e, c = some e ∧ CancelSet s.hist e) →
      (step s (.pollAttach t)).hist = s.hist ++ [.attached t d c] ∧ (step s (.pollAttach t)).pc t = .idle ∧
      ∀ e, c = some e → (step s (.pollAttach t)).cancel e = true) := by
  refine ⟨fun c hu h => ⟨fun hd => ?_, fun d hd => ?_⟩, fun d c h hx => ?_⟩
  · have hgl : s.glob = none := by
      cases hx : s.glob with
      | none => rfl
      | some d => exact absurd (((inv2_reachable hs).glob d).1 hx) (hd d)
    exact ⟨{ attach := true }, by simp [step, waitAttach, hu, h, hgl]⟩
  · have hgl : s.glob = some d := ((inv2_reachable hs).glob d).2 hd
    simp [step, waitAttach, hu, h, hgl, upd_self]
  · have f := (inv_reachable hs).flags
    have h1 : isSet s c = true ∨ (s.dbg d).configured = true := by
      rcases hx with hx | ⟨e, rfl, hx⟩
      · exact Or.inr ((f.configured d).2 hx)
      · exact Or.inl (cancelInv_reachable hs e hx)
    simp only [step, pollAttach, h]
    split
    · rename_i hset
      refine ⟨rfl, by simp [upd_self], ?_⟩
      rintro e rfl
      exact hset
    · rename_i hset
      rcases h1 with h1 | h1
      · exact absurd h1 hset
      · rw [if_pos h1]
        refine ⟨rfl, by simp [upd_self], ?_⟩
        rintro e rfl
        simp [setCancel, upd_self]

/-- The hypotheses are met: after `exampleThreads`-like steps one thread waits for the client, another for the lock,
and a third may ask to stop. -/
theorem c98_progress_example :
    let s := exec program [.call 1 {}, .call 2 {}, .acquire 2, .enter 2, .connect 2 true, .setReady 2, .handle 0 .run]
    s.pc 2 = .polling {} 0 ∧ Go s.hist 0 ∧ s.pc 1 = .want {} ∧ s.lock = some 2 ∧ InUse s.hist 0 ∧ s.pc 3 = .idle ∧
    port s.hist = some 5678 ∧
    (exec s [.poll 2, .finish 2, .acquire 1, .enter 1, .finish 1, .stop 3]).hist =
      s.hist ++ [.returned 2 0 {}, .returned 1 0 {}, .disposed 0] := by
  refine ⟨by decide +kernel, ⟨0, .run, Or.inr rfl, by decide +kernel⟩, by decide +kernel, by decide +kernel,
    ⟨⟨2, {}, by decide +kernel⟩, by decide +kernel⟩, by decide +kernel, by decide +kernel, by decide +kernel⟩

end Startup
