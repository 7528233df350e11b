import Verif.Startup.Lemmas
/-!
# The invariant of the threads
-/
namespace Startup
open Spec

/-- The thread is inside the part protected by the lock (or launching the script). -/
def holds : PC → Bool
  | .locked _ => true
  | .connecting _ _ => true
  | .connected _ _ => true
  | .polling _ _ => true
  | .tracing _ _ => true
  | _ => false

/-- The same, after the lock was taken. -/
def inside : PC → Bool
  | .connecting _ _ => true
  | .connected _ _ => true
  | .polling _ _ => true
  | .tracing _ _ => true
  | _ => false

/-- The arguments of the call the thread is in. -/
def args : PC → Option Args
  | .want a => some a
  | .locked a => some a
  | .connecting a _ => some a
  | .connected a _ => some a
  | .polling a _ => some a
  | .tracing a _ => some a
  | .reread a => some a
  | .socket a _ => some a
  | _ => none

/-- The thread is creating the debugger `d`. -/
def creating (d : Nat) : PC → Bool
  | .connecting _ d' => d' = d
  | .connected _ d' => d' = d
  | .polling _ d' => d' = d
  | _ => false

/-- The arguments are those of `main`. -/
def Launch (a : Args) : Prop := a.attach = false ∧ a.block = true ∧ a.wait = true

/-- What is true of a thread where it is. -/
def At (s : St) (t : Nat) : PC → Prop
  | .connecting a d => Ev.made t d a ∈ s.hist ∧ d < s.next ∧ (∀ b, Ev.attempt d b ∉ s.hist) ∧
      ((s.dbg d).ready = true → Go s.hist d)
  | .connected a d => Ev.made t d a ∈ s.hist ∧ d < s.next ∧ (a.block = true → Ev.attempt d true ∈ s.hist) ∧
      ((s.dbg d).ready = true → Go s.hist d)
  | .polling a d => Ev.made t d a ∈ s.hist ∧ d < s.next ∧ (a.block = true → Ev.attempt d true ∈ s.hist) ∧
      (a.wait = true → (s.dbg d).ready = true → Go s.hist d)
  | .tracing a d => (SetUp s.hist d ∧ (a.script = true → Ev.attempt d true ∈ s.hist ∧ Go s.hist d)) ∨
      (Failed s.hist d ∧ a.script = false)
  | .reread a => a.attach = true
  | .socket a _ => a.attach = true
  | _ => True

/-- What is true of an event, given what was before. -/
def Fine (pre : List Ev) : Ev → Prop
  | .made _ d _ => (∀ t' d' a', Ev.made t' d' a' ∈ pre → Ev.disposed d' ∈ pre ∧ d' < d)
  | .attempt d _ => ∀ b, Ev.attempt d b ∉ pre
  | .handled _ c .setBreakpoints b => b = true ↔ Launched pre c
  | .returned _ d a =>
      (a.attach = true → Ev.listening d ∈ pre) ∧
      (a.attach = false → (SetUp pre d ∧ (a.script = true → Ev.attempt d true ∈ pre ∧ Go pre d)) ∨
        (Failed pre d ∧ a.script = false)) ∧
      (a.script = true → a.attach = false)
  | .attached _ d c => Attached pre d ∨ ∃ e, c = some e ∧ CancelSet pre e
  | _ => True

/-- Before the script starts there is only the thread launching it; after that no thread launches one. -/
def Side (user : Bool) (p : PC) : Prop :=
  (user = true → ∀ a, args p = some a → a.script = false) ∧
  (user = false → p = .idle ∨ (inside p = true ∧ ∃ a, args p = some a ∧ a.script = true))

structure Inv (s : St) : Prop where
  flags : Flags s
  one : ∀ t t', holds (s.pc t) = true → holds (s.pc t') = true → t = t'
  locked : s.user = true → ∀ t, holds (s.pc t) = true → s.lock = some t
  side : ∀ t, Side s.user (s.pc t)
  noAttach : ∀ t a, args (s.pc t) = some a → a.script = true → Launch a
  at_ : ∀ t, At s t (s.pc t)
  glob : ∀ d, s.glob = some d → SetUp s.hist d ∨ Failed s.hist d ∨ ∃ t, creating d (s.pc t) = true
  listener : ∀ d, (s.dbg d).listener ≠ .none → d < s.next
  made : ∀ t d a, Ev.made t d a ∈ s.hist → d < s.next ∧ (s.glob = some d ∨ Ev.disposed d ∈ s.hist)
  tried : ∀ d b, Ev.attempt d b ∈ s.hist → d < s.next
  fine : AllPre Fine s.hist

theorem at_mono {s s' : St} {t : Nat} {p : PC} (h : At s t p) (hn : s.next ≤ s'.next) (e : List Ev)
    (hh : s'.hist = s.hist ++ e) (he : ∀ d b, Ev.attempt d b ∈ e → ¬ ∃ a, p = .connecting a d)
    (hr : ∀ a d, p = .connecting a d ∨ p = .connected a d ∨ (p = .polling a d ∧ a.wait = true) →
      (s'.dbg d).ready = true → (s.dbg d).ready = true ∨ Go s'.hist d) : At s' t p := by
  have hm : ∀ x, x ∈ s.hist → x ∈ s'.hist := fun x hx => by rw [hh]; exact List.mem_append_left _ hx
  have hg : ∀ d, Go s.hist d → Go s'.hist d := fun d hx => by rw [hh]; exact go_mono hx e
  cases p with
  | connecting a d =>
    obtain ⟨h1, h2, h3, h4⟩ := h
    refine ⟨hm _ h1, Nat.lt_of_lt_of_le h2 hn, ?_, ?_⟩
    · intro b hb
      rw [hh] at hb
      rcases List.mem_append.1 hb with hb | hb
      · exact h3 b hb
      · exact he d b hb ⟨a, rfl⟩
    · intro hx
      rcases hr a d (Or.inl rfl) hx with hx | hx
      · exact hg d (h4 hx)
      · exact hx
  | connected a d =>
    obtain ⟨h1, h2, h3, h4⟩ := h
    refine ⟨hm _ h1, Nat.lt_of_lt_of_le h2 hn, fun x => hm _ (h3 x), ?_⟩
    intro hx
    rcases hr a d (Or.inr (Or.inl rfl)) hx with hx | hx
    · exact hg d (h4 hx)
    · exact hx
  | polling a d =>
    obtain ⟨h1, h2, h3, h4⟩ := h
    refine ⟨hm _ h1, Nat.lt_of_lt_of_le h2 hn, fun x => hm _ (h3 x), ?_⟩
    intro hw hx
    rcases hr a d (Or.inr (Or.inr ⟨rfl, hw⟩)) hx with hx | hx
    · exact hg d (h4 hw hx)
    · exact hx
  | tracing a d =>
    rcases h with h | h
    · exact Or.inl ⟨by rw [hh]; exact setUp_mono h.1 e, fun x => ⟨hm _ (h.2 x).1, hg _ (h.2 x).2⟩⟩
    · exact Or.inr ⟨by rw [hh]; exact failed_mono h.1 e, h.2⟩
  | reread a => exact h
  | socket a d => exact h
  | _ => trivial

end Startup
